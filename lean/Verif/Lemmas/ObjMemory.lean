import Verif.Spec.ObjMemory
import Verif.Lemmas.EventWorld
import Verif.Lemmas.ConfigMemory
/-
Memory of events built by the caller.
-/
namespace BeTree
open Spec

/-! ### lists under construction -/

/-- the blocks of an entry that may be NULL -/
def optBlocks {β : Type} (blk : β → List Nat) : Option β → List Nat
  | none => []
  | some x => blk x

theorem putAt_ok {α : Type} {l l' : List α} {i : Nat} {x : α} (h : putAt l i x = .ok l') : i < l.length ∧ l' = l.set i x := by
  unfold putAt at h
  split at h
  · rename_i hi; cases h; exact ⟨hi, rfl⟩
  · cases h

theorem putAt_at {α : Type} {l : List α} {i : Nat} (x : α) (h : i < l.length) : putAt l i x = .ok (l.set i x) := if_pos h

/-- what making one entry does -/
def MakesOne {α β γ : Type} (make : α → Mem (Option (β × γ))) (plain : α → Option β) (blk : γ → List Nat) : Prop :=
  ∀ a, Does (make a) [] (fun x M => x.map Prod.fst = plain a ∧ M.Perm (optBlocks (fun p => blk p.2) x))

theorem addEachMem_does {α β γ : Type} {make : α → Mem (Option (β × γ))} {plain : α → Option β} {blk : γ → List Nat}
    (hm : MakesOne make plain blk) {add : List (Option β) → Nat → α → Except Fault (List (Option β))}
    (hadd : ∀ l i a, add l i a = putAt l i (plain a)) (ws : List (Nat × α)) :
    ∀ (l : List (Option (β × γ))) {r : List (Option β)}, addEach add (l.map (Option.map Prod.fst)) ws = .ok r →
    Does (addEachMem make l ws) (l.flatMap (optBlocks fun p => blk p.2)) (fun l' M => l'.map (Option.map Prod.fst) = r ∧
      ∃ N, M.Perm (l'.flatMap (optBlocks fun p => blk p.2) ++ N) ∧
        ((ws.map Prod.fst).Nodup → (∀ w ∈ ws, l[w.1]? = some none) → N = [])) := by
  induction ws with
  | nil =>
    intro l r h
    cases h
    exact Does.pure (.refl _) ⟨rfl, [], by simp, fun _ _ => rfl⟩
  | cons w ws ih =>
    obtain ⟨i, a⟩ := w
    intro l r h
    simp only [addEach, hadd] at h
    cases hp : putAt (l.map (Option.map Prod.fst)) i (plain a) with
    | error e => rw [hp] at h; cases h
    | ok l1 =>
      rw [hp] at h
      dsimp only at h
      obtain ⟨hi, rfl⟩ := putAt_ok hp
      rw [List.length_map] at hi
      unfold addEachMem
      refine Does.seq (P := []) (L' := l.flatMap (optBlocks fun p => blk p.2)) (.refl _) (hm a) ?_
      rintro x M ⟨hx, hM⟩
      refine Does.lift (putAt_at x hi) ?_
      obtain ⟨R, h1, h2⟩ := set_flat (optBlocks fun p : β × γ => blk p.2) l i l[i] (List.getElem?_eq_getElem hi)
      have h' : addEach add ((l.set i x).map (Option.map Prod.fst)) ws = .ok r := by
        rw [List.map_set, hx]; exact h
      rw [← bind_pure (addEachMem make (l.set i x) ws)]
      refine Does.seq (P := (l.set i x).flatMap (optBlocks fun p => blk p.2)) (L' := optBlocks (fun p => blk p.2) l[i]) ?_ (ih _ h') ?_
      · refine (hM.append h1).trans ?_
        refine List.Perm.trans ?_ ((h2 x).symm.append_right _)
        blocks
      rintro l' M' ⟨hl, N, hM', hN⟩
      have key : (fun l' M => l'.map (Option.map Prod.fst) = r ∧ ∃ N, M.Perm (l'.flatMap (optBlocks fun p => blk p.2) ++ N) ∧
        (((((i, a) :: ws).map Prod.fst).Nodup → (∀ w ∈ (i, a) :: ws, l[w.1]? = some none) → N = []))) l' (M' ++ optBlocks (fun p => blk p.2) l[i]) := by
        refine ⟨hl, N ++ optBlocks (fun p => blk p.2) l[i], ?_, fun hn hw => ?_⟩
        · rw [← List.append_assoc]; exact hM'.append_right _
        · rw [List.map_cons, List.nodup_cons] at hn
          have h0 := hw (i, a) (by simp)
          rw [List.getElem?_eq_getElem hi] at h0
          rw [Option.some.inj h0]
          have := hN hn.2 (fun w hw' => by
            rw [List.getElem?_set_ne]
            · exact hw w (by simp [hw'])
            · intro he
              exact hn.1 (List.mem_map.mpr ⟨w, hw', he.symm⟩))
          rw [this]
          rfl
      exact Does.pure (.refl _) key

theorem noNulls_pairs {β γ : Type} {blk : γ → List Nat} : ∀ (l : List (Option (β × γ))) {r : List β},
    noNulls (l.map (Option.map Prod.fst)) = .ok r →
    ∃ ps, noNulls l = .ok ps ∧ ps.map Prod.fst = r ∧ l.flatMap (optBlocks fun p => blk p.2) = (ps.map Prod.snd).flatMap blk := by
  intro l
  induction l with
  | nil => intro r h; cases h; exact ⟨[], rfl, rfl, rfl⟩
  | cons x l ih =>
    intro r h
    cases x with
    | none => cases h
    | some p =>
      simp only [List.map_cons, Option.map_some, noNulls] at h
      cases hn : noNulls (l.map (Option.map Prod.fst)) with
      | error e => rw [hn] at h; cases h
      | ok r' =>
        rw [hn] at h
        cases h
        obtain ⟨ps, e1, rfl, e3⟩ := ih hn
        refine ⟨p :: ps, by simp only [noNulls, e1], rfl, ?_⟩
        simp only [List.flatMap_cons, List.map_cons, e3, optBlocks]

theorem stringMem_makes : MakesOne stringMem (fun s => some ⟨s, 0, 0⟩) (fun b => [b]) := by
  intro s
  exact Does.malloc fun b => Does.pure (.refl _) ⟨rfl, .refl _⟩

theorem segmentMem_makes : MakesOne segmentMem (fun s => some s) (fun b => [b]) := by
  intro s
  exact Does.malloc fun b => Does.pure (.refl _) ⟨rfl, .refl _⟩

theorem capMem_makes :
    MakesOne capMem (fun a => makeCap a.stype a.id a.ns a.timestampDefined a.timestamp a.value) (fun p => [p.1, p.2]) := by
  intro a
  unfold capMem
  cases h : makeCap a.stype a.id a.ns a.timestampDefined a.timestamp a.value with
  | none => exact Does.pure (.refl _) ⟨h.symm, .refl _⟩
  | some c => exact Does.malloc fun ns => Does.malloc fun b => Does.pure (.refl _) ⟨h.symm, .refl _⟩

/-- a value and its blocks, except that an empty list may have an array -/
def Shaped : Value → ValImg → Prop
  | .bool _, .plain => True
  | .int _, .plain => True
  | .float _, .plain => True
  | .intEnum _, .plain => True
  | .string _, .str _ => True
  | .intList _, .ints _ _ => True
  | .strList l, .strs _ _ ss => ss.length = l.length
  | .segments l, .segs _ _ ss => ss.length = l.length
  | .freq l, .caps _ _ cs => cs.length = l.length
  | _, _ => False

theorem flatMap_one (l : List Nat) : l.flatMap (fun b => [b]) = l := by
  induction l with
  | nil => rfl
  | cons x l ih => simp [ih]

theorem flatMap_two (l : List (Nat × Nat)) : (l.flatMap fun p => [p.1, p.2]).Perm (l.map Prod.fst ++ l.map Prod.snd) := by
  induction l with
  | nil => exact .refl _
  | cons x l ih =>
    simp only [List.flatMap_cons, List.map_cons]
    refine (ih.append_left _).trans ?_
    blocks

theorem nullList_blocks {β : Type} (blk : β → List Nat) (n : Nat) : (makeNullList β n).flatMap (optBlocks blk) = [] := by
  simp [makeNullList, optBlocks]

theorem addEach_length {α β : Type} {add : List β → Nat → α → Except Fault (List β)} {plain : α → β}
    (hadd : ∀ l i a, add l i a = putAt l i (plain a)) (ws : List (Nat × α)) :
    ∀ {l r : List β}, addEach add l ws = .ok r → ∀ w ∈ ws, w.1 < l.length := by
  induction ws with
  | nil => intro l r _ w hw; cases hw
  | cons w ws ih =>
    intro l r h w' hw'
    simp only [addEach, hadd] at h
    cases hp : putAt l w.1 (plain w.2) with
    | error e => rw [hp] at h; cases h
    | ok l1 =>
      rw [hp] at h
      obtain ⟨hi, rfl⟩ := putAt_ok hp
      rcases List.mem_cons.mp hw' with rfl | hw'
      · exact hi
      · simpa using ih h w' hw'

/-- a whole list of pointers -/
theorem list_does {α β γ : Type} {make : α → Mem (Option (β × γ))} {plain : α → Option β} {blk : γ → List Nat}
    (hm : MakesOne make plain blk) {add : List (Option β) → Nat → α → Except Fault (List (Option β))}
    (hadd : ∀ l i a, add l i a = putAt l i (plain a)) {mk : List β → Value} {img : List γ → ValImg} {n : Nat} {ws : List (Nat × α)}
    {v : Value} (h : finished mk (addEach add (makeNullList β n) ws) = .ok v) {L : List Nat}
    {f : List (β × γ) → Mem (Value × ValImg)} (hf : f = fun l => pure (mk (l.map Prod.fst), img (l.map Prod.snd)))
    (hb : ∀ l, (l.flatMap blk ++ L).Perm (img l).blocks) (hs : ∀ l : List (β × γ), Shaped (mk (l.map Prod.fst)) (img (l.map Prod.snd))) :
    Does (addEachMem make (makeNullList _ n) ws >>= fun l => liftMem (noNulls l) >>= f) L (fun x M => x.1 = v ∧ Shaped x.1 x.2 ∧
      ∃ N, M.Perm (x.2.blocks ++ N) ∧ ((ws.map Prod.fst).Nodup → N = [])) := by
  subst hf
  cases ha : addEach add (makeNullList β n) ws with
  | error e => rw [ha] at h; cases h
  | ok r =>
    rw [ha] at h
    simp only [finished] at h
    cases hn : noNulls r with
    | error e => rw [hn] at h; cases h
    | ok r' =>
      rw [hn] at h
      cases h
      have hlen := addEach_length hadd ws ha
      refine Does.seq (P := (makeNullList (β × γ) n).flatMap (optBlocks fun p => blk p.2)) (L' := L) (by rw [nullList_blocks]; exact .refl _)
        (addEachMem_does hm hadd ws (makeNullList (β × γ) n) (r := r) (by
          rw [show (makeNullList (β × γ) n).map (Option.map Prod.fst) = makeNullList β n by simp [makeNullList]]; exact ha)) ?_
      rintro l M ⟨rfl, N, hM, hN⟩
      obtain ⟨ps, e1, rfl, e3⟩ := noNulls_pairs (blk := blk) l hn
      refine Does.lift e1 ?_
      refine Does.pure (L' := M ++ L) (.refl _) ⟨rfl, hs ps, N, ?_, fun hd => hN hd fun w hw => ?_⟩
      · rw [e3] at hM
        refine (hM.append_right _).trans (List.Perm.trans ?_ ((hb _).append_right _))
        blocks
      · have := hlen w hw
        simp only [makeNullList, List.length_replicate] at this
        simp [makeNullList, this]

theorem recipe_does (m : Recipe) {v : Value} (h : m.value = .ok v) :
    Does m.mem [] (fun x M => x.1 = v ∧ Shaped x.1 x.2 ∧ ∃ N, M.Perm (x.2.blocks ++ N) ∧ (m.Once → N = [])) := by
  cases m with
  | bool b => cases h; exact Does.pure (.refl _) ⟨rfl, trivial, [], .refl _, fun _ => rfl⟩
  | int b => cases h; exact Does.pure (.refl _) ⟨rfl, trivial, [], .refl _, fun _ => rfl⟩
  | float b => cases h; exact Does.pure (.refl _) ⟨rfl, trivial, [], .refl _, fun _ => rfl⟩
  | string b => cases h; exact Does.malloc fun s => Does.pure (.refl _) ⟨rfl, trivial, [], .refl _, fun _ => rfl⟩
  | ints n ws =>
    simp only [Recipe.value] at h
    cases ha : addEach addInteger (makeIntegerList n) ws with
    | error e => rw [ha] at h; cases h
    | ok l =>
      rw [ha] at h
      cases h
      refine Does.malloc fun hd => Does.malloc fun a => Does.lift ha ?_
      exact Does.pure (.refl _) ⟨rfl, trivial, [], by simp only [ValImg.blocks, Option.toList]; blocks, fun _ => rfl⟩
  | strs n ws =>
    refine Does.malloc fun hd => Does.malloc fun a => ?_
    refine list_does stringMem_makes (fun _ _ _ => rfl) h (mk := .strList) (img := fun l => .strs hd (some a) l) rfl ?_ ?_
    · intro l
      rw [flatMap_one]
      simp only [ValImg.blocks, Option.toList]
      blocks
    · intro l; simp [Shaped]
  | segs n ws =>
    refine Does.malloc fun hd => Does.malloc fun a => ?_
    refine list_does segmentMem_makes (fun _ _ _ => rfl) h (mk := .segments) (img := fun l => .segs hd (some a) l) rfl ?_ ?_
    · intro l
      rw [flatMap_one]
      simp only [ValImg.blocks, Option.toList]
      blocks
    · intro l; simp [Shaped]
  | caps n ws =>
    refine Does.malloc fun hd => Does.malloc fun a => ?_
    refine list_does capMem_makes (fun _ _ _ => rfl) h (mk := .freq) (img := fun l => .caps hd (some a) l) rfl ?_ ?_
    · intro l
      refine ((flatMap_two l).append_right _).trans ?_
      simp only [ValImg.blocks, Option.toList]
      blocks
    · intro l; simp [Shaped]

/-- a variable and its blocks -/
theorem makeVariable_does (name : Str) (m : Recipe) {v : Value} (h : m.value = .ok v) :
    Does (makeVariableMem name m) [] (fun x M => x.1 = ⟨name, v⟩ ∧ Shaped v x.2.value ∧
      ∃ N, M.Perm (x.2.blocks ++ N) ∧ (m.Once → N = [])) := by
  unfold makeVariableMem
  refine Does.seq (P := []) (L' := []) (.refl _) (recipe_does m h) ?_
  rintro ⟨x, i⟩ M ⟨rfl, hs, N, hM, hN⟩
  refine Does.malloc fun a => Does.malloc fun p => ?_
  refine Does.pure (.refl _) ⟨rfl, hs, N, ?_, hN⟩
  simp only [VarImg.blocks]
  rw [List.append_nil]
  refine ((hM.cons a).cons p).trans ?_
  blocks

theorem freeVariable_does (v : VarImg) : Gone (freeVariable v) v.blocks := by
  refine Does.free (L' := v.value.blocks ++ [v.var]) ?_ ?_
  · simp only [VarImg.blocks]; blocks
  · exact Gone.then (freeVal_does v.value) (Does.freeLast (.refl _)) (.refl _)

/-! ### preparing -/

theorem sortShaped_does {v : Value} {i : ValImg} (h : Shaped v i) :
    Does (sortValueMem v i) i.blocks (fun j M => M.Perm j.blocks ∧ Shaped (sortValue v) j) := by
  cases v <;> cases i <;> simp only [Shaped] at h <;> try exact h.elim
  case strList.strs l hd a ss =>
    have hp := sortBy_perm (fun p : StrVal × Nat => p.1.str) (l.zip ss)
    have hs : (l.zip ss).map Prod.snd = ss := List.map_snd_zip (by omega)
    have hf : (l.zip ss).map Prod.fst = l := List.map_fst_zip (by omega)
    have hsp : ((sortBy (fun p : StrVal × Nat => p.1.str) (l.zip ss)).map Prod.snd).Perm ss := by
      have := hp.map Prod.snd
      rwa [hs] at this
    refine Does.seq (P := (sortBy (fun p : StrVal × Nat => p.1.str) (l.zip ss)).map Prod.snd) (L' := hd :: a.toList) ?_
      (dedupStrs_does _) fun r M hM => ?_
    · simp only [ValImg.blocks]
      refine List.Perm.trans ?_ (hsp.symm.append_right _)
      blocks
    · refine Does.pure (L' := M ++ hd :: a.toList) (.refl _) ⟨?_, ?_⟩
      · simp only [ValImg.blocks]
        refine (hM.1.append_right _).trans ?_
        blocks
      · simp only [Shaped, sortValue]
        rw [hM.2, sortBy_map StrVal.str Prod.fst, hf]
  all_goals exact Does.pure (.refl _) ⟨.refl _, h⟩

theorem fillValue_shaped {cfg : Config} {var : Nat} {ty : VType} {v x : Value} {i : ValImg} (h : fillValue cfg var ty v = .ok x)
    (hf : Shaped v i) : Shaped x (i.retype x) ∧ (i.retype x).blocks = i.blocks := by
  cases v <;> cases i <;> simp only [Shaped] at hf <;> simp only [fillValue] at h
  case strList.strs l hd a ss =>
    split at h
    · cases hs : fillStrs cfg var l with
      | error e => rw [hs] at h; cases h
      | ok l' =>
        rw [hs] at h; cases h
        have := fillStrs_length hs
        exact ⟨by simp only [ValImg.retype, Shaped]; omega, rfl⟩
    · cases h
  case freq.caps l hd a cs =>
    split at h
    · cases hs : fillCaps cfg var l with
      | error e => rw [hs] at h; cases h
      | ok l' =>
        rw [hs] at h; cases h
        have := fillCaps_length hs
        exact ⟨by simp only [ValImg.retype, Shaped]; omega, rfl⟩
    · cases h
  case string.str s b =>
    split at h
    · cases hs : fillStr cfg var s with
      | error e => rw [hs] at h; cases h
      | ok l' => rw [hs] at h; cases h; exact ⟨trivial, rfl⟩
    · cases h
  case intList.ints l hd a =>
    split at h
    · cases h; exact ⟨trivial, rfl⟩
    · cases h
      simp [ValImg.retype, Shaped, ValImg.blocks]
    · cases h
      simp [ValImg.retype, Shaped, ValImg.blocks]
    · cases h
      simp [ValImg.retype, Shaped, ValImg.blocks]
    · cases h
  all_goals
    repeat' split at h
    all_goals first | (cases h; done) | (cases h; exact ⟨hf, rfl⟩)

/-! ### events -/

/-- the blocks of the variables in the slots of an event -/
abbrev slotBlocks : Option (EventVar × VarImg) → List Nat := optBlocks fun p => p.2.blocks

/-- the values in the slots fit their blocks -/
def SlotsOk (s : List (Option (EventVar × VarImg))) : Prop := ∀ p, some p ∈ s → Shaped p.1.value p.2.value

theorem obj_blocks (o : ObjMem) : o.blocks = o.event :: o.array :: o.slots.flatMap slotBlocks := by
  have : ∀ s : List (Option (EventVar × VarImg)), ((s.filterMap id).map Prod.snd).flatMap VarImg.blocks = s.flatMap slotBlocks := by
    intro s
    induction s with
    | nil => rfl
    | cons x s ih =>
      cases x with
      | none => simpa [optBlocks] using ih
      | some p => simpa [optBlocks] using ih
  simp only [ObjMem.blocks, ObjMem.img, EventImg.blocks, this, Option.toList, List.cons_append, List.nil_append]

theorem sortSlots_does {cfg : Config} (s : List (Option (EventVar × VarImg))) :
    ∀ {l : List (Option (Nat × EventVar))}, fillObj cfg (s.map (Option.map Prod.fst)) = .ok l → SlotsOk s →
    Does (sortSlotsMem l s) (s.flatMap slotBlocks) (fun s' M => M.Perm (s'.flatMap slotBlocks) ∧
      s'.map (Option.map Prod.fst) = leftObj (sortObj l) ∧ SlotsOk s' ∧ s'.map Option.isSome = s.map Option.isSome) := by
  induction s with
  | nil =>
    intro l h _
    cases h
    exact Does.pure (.refl _) ⟨.refl _, rfl, (by intro p hp; cases hp), rfl⟩
  | cons x s ih =>
    intro l h hs
    have hs' : SlotsOk s := fun p hp => hs p (by simp [hp])
    cases x with
    | none =>
      simp only [List.map_cons, Option.map_none, fillObj] at h
      cases hr : fillObj cfg (s.map (Option.map Prod.fst)) with
      | error e => rw [hr] at h; cases h
      | ok rest =>
        rw [hr] at h
        cases h
        unfold sortSlotsMem
        refine Does.seq (P := s.flatMap slotBlocks) (L' := []) (by simp [optBlocks]) (ih hr hs') ?_
        rintro s' M ⟨hM, h1, h2, h3⟩
        refine Does.pure (.refl _) ⟨by simpa [optBlocks] using hM, ?_, ?_, by simp [h3]⟩
        · simp only [List.map_cons, Option.map_none, h1, leftObj, sortObj]
        · intro p hp
          exact h2 p (by simpa using hp)
    | some p =>
      obtain ⟨v, i⟩ := p
      simp only [List.map_cons, Option.map_some, fillObj] at h
      repeat' split at h
      all_goals first | (cases h; done) | skip
      rename_i hx _ _ hr
      cases h
      obtain ⟨h1, h2⟩ := fillValue_shaped hx (hs (v, i) (by simp))
      unfold sortSlotsMem
      refine Does.seq (P := (i.value.retype _).blocks) (L' := i.var :: i.attr :: s.flatMap slotBlocks) ?_ (sortShaped_does h1) ?_
      · simp only [List.flatMap_cons, optBlocks, VarImg.blocks, h2]; blocks
      rintro x' M ⟨hM, hx'⟩
      refine Does.seq (P := s.flatMap slotBlocks) (L' := i.var :: i.attr :: M) (by blocks) (ih hr hs') ?_
      rintro s' M' ⟨hM', g1, g2, g3⟩
      refine Does.pure (L' := M' ++ i.var :: i.attr :: M) (.refl _) ⟨?_, ?_, ?_, by simp [g3]⟩
      · simp only [List.flatMap_cons, optBlocks, VarImg.blocks]
        refine ((hM'.append_right _).trans ?_)
        refine List.Perm.trans (List.Perm.append_left _ ((hM.cons _).cons _)) ?_
        blocks
      · simp only [List.map_cons, Option.map_some, g1, leftObj, sortObj]
      · intro p hp
        rcases List.mem_cons.mp hp with e | hp
        · cases e; exact hx'
        · exact g2 p hp

theorem prepare_does {t : Tree} {o : ObjMem} {l : List (Option (Nat × EventVar))} (h : fillObj t.cfg o.obj = .ok l) (ho : SlotsOk o.slots) :
    Does (t.prepareMem o) o.blocks (fun p M => p.1 = ((sortObj l).filterMap id).map (fun q => (q.1, q.2.value)) ∧
      p.2.obj = leftObj (sortObj l) ∧ SlotsOk p.2.slots ∧ p.2.slots.map Option.isSome = o.slots.map Option.isSome ∧ M.Perm p.2.blocks) := by
  unfold Tree.prepareMem
  refine Does.then (touchAll_does fun b hb => all_sub _ b hb) ?_
  refine Does.lift h ?_
  refine Does.seq (P := o.slots.flatMap slotBlocks) (L' := [o.event, o.array]) (by rw [obj_blocks]; blocks) (sortSlots_does o.slots h ho) ?_
  rintro s M ⟨hM, h1, h2, h3⟩
  refine Does.pure (.refl _) ⟨rfl, h1, h2, h3, ?_⟩
  rw [obj_blocks]
  refine (hM.append_right _).trans ?_
  blocks

theorem searchObj_does {geo : GeoTest} {w : MemWorld} {st wt gn : Objs} {dn L : List Nat} (hw : Owned w st wt gn dn)
    (hL : ∀ b ∈ Objs.flat st, b ∈ L) {o : ObjMem} (ho : SlotsOk o.slots) {rep : Report} {r : ReportImg} (hr : FitsReport rep r)
    {a : Option Report} {ev : EventObj} (h : w.world.tree.searchObj geo o.obj rep = .ok (a, ev)) :
    Does (w.searchObj geo o rep r) (o.blocks ++ (r.blocks ++ L)) (fun x M => x.1 = a ∧ x.2.2.obj = ev ∧ SlotsOk x.2.2.slots ∧
      x.2.2.slots.map Option.isSome = o.slots.map Option.isSome ∧ FitsReport (a.getD rep) x.2.1 ∧
      ∃ N, M.Perm (x.2.2.blocks ++ (x.2.1.blocks ++ (N ++ L))) ∧ (a.isSome = true → N = [])) := by
  simp only [Tree.searchObj] at h
  cases hf : fillObj w.world.tree.cfg o.obj with
  | error e => rw [hf] at h; cases h
  | ok l =>
    rw [hf] at h
    dsimp only at h
    unfold MemWorld.searchObj
    refine Does.seq (P := o.blocks) (L' := r.blocks ++ L) (.refl _) (prepare_does hf ho) ?_
    rintro ⟨vars, o'⟩ M ⟨rfl, h1, h2, h3, hM⟩
    refine Does.perm ?_ (hM.append_right _)
    have hv : (if validateVariables w.world.tree.cfg.domains (objEnv w.world.tree.cfg (sortObj l)) then
        (searchWithPreds geo w.world.tree.cfg (objEnv w.world.tree.cfg (sortObj l)) w.world.tree.root rep).map some
      else .ok none) = .ok a ∧ ev = leftObj (sortObj l) := by
      split at h
      · rename_i hv
        rw [if_pos hv]
        split at h
        · cases h
        · rename_i e; cases h; rw [e]; exact ⟨rfl, rfl⟩
      · rename_i hv
        rw [if_neg hv]
        cases h; exact ⟨rfl, rfl⟩
    obtain ⟨hv, rfl⟩ := hv
    refine Does.seq (P := o'.blocks ++ (r.blocks ++ L)) (L' := []) (by simp) (searchFilled_does (i := o'.img) hw hL hr hv) ?_
    rintro ⟨a', r'⟩ M' ⟨rfl, hr', N, hM', hN⟩
    exact Does.pure (.refl _) ⟨rfl, h1, h2, h3, hr', N, by simpa [ObjMem.blocks] using hM', hN⟩

theorem existsObj_does {geo : GeoTest} {w : MemWorld} {st wt gn : Objs} {dn L : List Nat} (hw : Owned w st wt gn dn)
    (hL : ∀ b ∈ Objs.flat st, b ∈ L) {o : ObjMem} (ho : SlotsOk o.slots)
    {a : Bool} {ev : EventObj} (h : w.world.tree.existsObj geo o.obj = .ok (a, ev)) :
    Does (w.existsObj geo o) (o.blocks ++ L) (fun x M => x.1 = a ∧ x.2.obj = ev ∧ SlotsOk x.2.slots ∧
      x.2.slots.map Option.isSome = o.slots.map Option.isSome ∧ M.Perm (x.2.blocks ++ L)) := by
  simp only [Tree.existsObj] at h
  cases hf : fillObj w.world.tree.cfg o.obj with
  | error e => rw [hf] at h; cases h
  | ok l =>
    rw [hf] at h
    dsimp only at h
    split at h
    · cases h
    rename_i he
    cases h
    unfold MemWorld.existsObj
    refine Does.seq (P := o.blocks) (L' := L) (.refl _) (prepare_does hf ho) ?_
    rintro ⟨vars, o'⟩ M ⟨rfl, h1, h2, h3, hM⟩
    refine Does.perm ?_ (hM.append_right _)
    refine Does.seq (P := o'.blocks ++ L) (L' := []) (by simp) (existsFilled_does (i := o'.img) hw hL he) ?_
    rintro a' M' ⟨rfl, hM'⟩
    exact Does.pure (.refl _) ⟨rfl, h1, h2, h3, by simpa [ObjMem.blocks] using hM'⟩

/-! ### sequences of calls -/

/-- the blocks of the events the caller holds -/
abbrev heldBlocks (objs : List (Option ObjMem)) : List Nat := objs.flatMap (optBlocks ObjMem.blocks)

def ObjsOk (objs : List (Option ObjMem)) : Prop := ∀ o, some o ∈ objs → SlotsOk o.slots

def EventWorld.plain (w : EventWorld) : EventPlain := ⟨w.mem.world, w.objs.map (Option.map ObjMem.obj)⟩

/-- no entry that is still to be set is set already -/
def Unset (objs : List (Option ObjMem)) (todo : List (Nat × Nat)) : Prop :=
  ∀ x ∈ todo, ∀ o, objs[x.1]? = some (some o) → ∀ p, o.slots[x.2]? ≠ some (some p)

theorem heldAt_ok {α : Type} {objs : List (Option α)} {k : Nat} {o : α} (h : heldAt objs k = .ok o) : objs[k]? = some (some o) := by
  unfold heldAt at h
  split at h
  · rename_i e; cases h; exact e
  · cases h

theorem heldAt_of {α : Type} {objs : List (Option α)} {k : Nat} {o : α} (h : objs[k]? = some (some o)) : heldAt objs k = .ok o := by
  simp [heldAt, h]

/-- the event behind the plain one -/
theorem held_obj {objs : List (Option ObjMem)} {k : Nat} {ev : EventObj} (h : heldAt (objs.map (Option.map ObjMem.obj)) k = .ok ev) :
    ∃ o, objs[k]? = some (some o) ∧ o.obj = ev := by
  have := heldAt_ok h
  rw [List.getElem?_map] at this
  cases ho : objs[k]? with
  | none => rw [ho] at this; cases this
  | some x =>
    rw [ho] at this
    cases x with
    | none => cases this
    | some o => exact ⟨o, rfl, by simpa using this⟩

theorem objsOk_set {objs : List (Option ObjMem)} {k : Nat} {o : Option ObjMem} (h : ObjsOk objs) (ho : ∀ x, o = some x → SlotsOk x.slots) :
    ObjsOk (objs.set k o) := by
  intro x hx
  rcases List.mem_or_eq_of_mem_set hx with hx | rfl
  · exact h x hx
  · exact ho x rfl

theorem isSome_at {s s' : List (Option (EventVar × VarImg))} (h : s'.map Option.isSome = s.map Option.isSome) {i : Nat}
    (hn : ∀ p, s[i]? ≠ some (some p)) : ∀ p, s'[i]? ≠ some (some p) := by
  intro p hp
  have := congrArg (fun l : List Bool => l[i]?) h
  simp only [List.getElem?_map, hp, Option.map_some, Option.isSome_some] at this
  cases hs : s[i]? with
  | none => rw [hs] at this; cases this
  | some x =>
    rw [hs] at this
    cases x with
    | none => simp at this
    | some q => exact hn q hs

theorem unset_set {objs : List (Option ObjMem)} {todo : List (Nat × Nat)} {k : Nat} {o o' : ObjMem} (h : Unset objs todo)
    (hk : objs[k]? = some (some o)) (ho : o'.slots.map Option.isSome = o.slots.map Option.isSome) : Unset (objs.set k (some o')) todo := by
  intro x hx y hy p
  by_cases he : k = x.1
  · subst he
    rw [List.getElem?_set_self (by obtain ⟨hlt, _⟩ := List.getElem?_eq_some_iff.mp hk; exact hlt)] at hy
    cases hy
    exact isSome_at ho (h x hx o hk) p
  · rw [List.getElem?_set_ne he] at hy
    exact h x hx y hy p

theorem heldSearches_does {geo : GeoTest} {st wt gn : Objs} {dn : List Nat} (ks : List Nat) :
    ∀ {w : EventWorld} {L : List Nat} {rep : Report} {r : ReportImg} {w' : EventPlain} {rep' : Report} {bs : List Bool},
    Owned w.mem st wt gn dn → ObjsOk w.objs → (∀ b ∈ Objs.flat st, b ∈ L) → FitsReport rep r →
    w.plain.searches geo ks rep = .ok (w', rep', bs) →
    Does (w.searches geo ks rep r) (r.blocks ++ (heldBlocks w.objs ++ L)) (fun x M => x.1.plain = w' ∧ x.1.mem = w.mem ∧ x.2.1 = rep' ∧
      x.2.2.1 = bs ∧ ObjsOk x.1.objs ∧ (∀ todo, Unset w.objs todo → Unset x.1.objs todo) ∧
      ∃ N, M.Perm (x.2.2.2.blocks ++ (heldBlocks x.1.objs ++ (N ++ L))) ∧ (false ∉ bs → N = [])) := by
  induction ks with
  | nil =>
    intro w L rep r w' rep' bs hw hok hL hr h
    cases h
    exact Does.pure (.refl _) ⟨rfl, rfl, rfl, rfl, hok, fun _ h => h, [], by simp, fun _ => rfl⟩
  | cons k ks ih =>
    intro w L rep r w' rep' bs hw hok hL hr h
    simp only [EventPlain.searches] at h
    cases hh : heldAt w.plain.objs k with
    | error e => rw [hh] at h; cases h
    | ok ev =>
      rw [hh] at h
      dsimp only at h
      obtain ⟨o, ho, rfl⟩ := held_obj hh
      cases hs : w.plain.world.tree.searchObj geo o.obj rep with
      | error e => rw [hs] at h; cases h
      | ok q =>
        obtain ⟨a, ev⟩ := q
        rw [hs] at h
        dsimp only at h
        cases hn : EventPlain.searches geo { w.plain with objs := w.plain.objs.set k (some ev) } ks (a.getD rep) with
        | error e => rw [hn] at h; cases h
        | ok q =>
          obtain ⟨w1, rep1, bs1⟩ := q
          rw [hn] at h
          cases h
          obtain ⟨R, f1, f2⟩ := set_flat (optBlocks ObjMem.blocks) w.objs k (some o) ho
          unfold EventWorld.searches
          refine Does.lift (heldAt_of ho) ?_
          refine Does.seq (P := o.blocks ++ (r.blocks ++ (R ++ L))) (L' := []) ?_
            (searchObj_does hw (L := R ++ L) (fun b hb => by simp [hL b hb]) (hok o (List.mem_of_getElem? ho)) hr hs) ?_
          · refine (List.Perm.append_left _ (f1.append_right _)).trans ?_
            simp only [optBlocks]
            blocks
          rintro ⟨a', r', o'⟩ M ⟨rfl, rfl, g2, g3, g4, N, hM, hN⟩
          dsimp only
          refine Does.seq (P := r'.blocks ++ (heldBlocks (w.objs.set k (some o')) ++ (N ++ L))) (L' := []) ?_
            (ih (w := { w with objs := w.objs.set k (some o') }) hw (objsOk_set hok (by rintro x ⟨⟩; exact g2))
              (fun b hb => by simp [hL b hb]) g4 (by
                rw [← hn]; simp [EventWorld.plain, List.map_set])) ?_
          · rw [List.append_nil, List.append_nil]
            refine hM.trans ?_
            refine List.Perm.trans ?_ (List.Perm.append_left _ ((f2 (some o')).symm.append_right _))
            simp only [optBlocks]
            blocks
          rintro ⟨w2, rep2, bs2, r2⟩ M' ⟨rfl, k1, rfl, rfl, k2, k3, N', hM', hN'⟩
          refine Does.pure (.refl _) ⟨rfl, k1, rfl, rfl, k2, fun todo ht => k3 todo (unset_set ht ho g3), N' ++ N, ?_, ?_⟩
          · rw [List.append_nil, List.append_assoc]; exact hM'
          · intro hb
            rw [List.mem_cons, not_or] at hb
            rw [hN' hb.2, hN (by cases hi : a'.isSome <;> simp_all)]
            rfl

theorem treeOps_user (o : UserOp) (os : List UserOp) : treeOps (o :: os) = treeOps [o] ++ treeOps os := by
  cases o <;> simp [treeOps]

/-- one call -/
theorem eventStep_does {geo : GeoTest} {R : Rounding} {w : EventWorld} {st wt gn : Objs} {dn L : List Nat} {o : EventOp} {os : List EventOp}
    {w' : EventPlain} {as : List Answer} (hw : Owned w.mem st wt gn dn) (hok : ObjsOk w.objs)
    (ha : Ahead w.mem wt (treeOps (userOps (o :: os)))) (h : w.plain.step geo R o = .ok (w', as)) :
    Does (w.step geo R o) (Objs.flat (st ++ wt) ++ (heldBlocks w.objs ++ L)) (fun x M => x.1.plain = w' ∧ x.2 = as ∧
      ∃ st' wt' gn' L' dn', (∀ k, k ∈ dn' ↔ k ∈ doneIn R w.mem.world (treeOps (userOps [o]))) ∧
      (o.Own → st' = st ∧ wt' = wt ∧ x.1.mem = w.mem) ∧
      M.Perm (Objs.flat (st' ++ wt') ++ (heldBlocks x.1.objs ++ L')) ∧ Owned x.1.mem st' wt' gn' (dn' ++ dn) ∧ ObjsOk x.1.objs ∧
      Ahead x.1.mem wt' (treeOps (userOps os)) ∧
      ((setAt (o :: os)).Nodup → Unset w.objs (setAt (o :: os)) → Unset x.1.objs (setAt os)) ∧
      (Unset w.objs (setAt (o :: os)) → (∀ o' ∈ treeOps (userOps [o]), Clean o') → o.MadeOnce → (∀ a ∈ as, Answered a) → L' = L)) := by
  have hsub : ∀ b ∈ Objs.flat st, b ∈ Objs.flat (st ++ wt) ++ L := fun b hb => by simp [flat_append, hb]
  cases o with
  | user o =>
    simp only [EventPlain.step] at h
    cases hu : w.plain.world.userStep geo R o with
    | error e => rw [hu] at h; cases h
    | ok q =>
      obtain ⟨t, a⟩ := q
      rw [hu] at h
      cases h
      unfold EventWorld.step
      refine Does.seq (P := Objs.flat (st ++ wt) ++ []) (L' := heldBlocks w.objs ++ L) (by simp)
        (userStep_owned (os := userOps os) hw (by simpa [userOps] using ha) hu) ?_
      rintro ⟨m, a'⟩ M ⟨rfl, rfl, st', wt', gn', N, dn', h1, h2, h3, h4, h5⟩
      refine Does.pure (.refl _) ⟨rfl, rfl, st', wt', gn', N ++ L, dn', h1, fun hx => hx.elim, ?_, h3, hok, h4, fun _ hu' => hu', fun _ hc _ han => ?_⟩
      · refine (h2.append_right _).trans ?_
        blocks
      · rw [h5 hc han]; rfl
  | make =>
    cases h
    unfold EventWorld.step Tree.makeEventMem
    rw [mem_assoc]
    refine Does.malloc fun e => ?_
    rw [mem_assoc]
    refine Does.malloc fun a => ?_
    rw [mem_pure_bind]
    refine Does.pure (.refl _) ⟨?_, rfl, st, wt, gn, L, [], by simp [userOps, treeOps, doneIn], fun _ => ⟨rfl, rfl, rfl⟩, ?_, hw, ?_, ha, fun _ hu x hx o ho p => ?_, fun _ _ _ _ => rfl⟩
    · simp [EventWorld.plain, ObjMem.obj, Tree.makeEvent]
    · simp only [heldBlocks, List.flatMap_append, List.flatMap_cons, List.flatMap_nil, optBlocks, obj_blocks]
      have : (List.replicate w.mem.world.tree.cfg.domains.length (none : Option (EventVar × VarImg))).flatMap slotBlocks = [] := by
        simp [optBlocks]
      rw [this]
      blocks
    · intro o ho p hp
      rcases List.mem_append.mp ho with ho | ho
      · exact hok o ho p hp
      · simp at ho
        subst ho
        simp at hp
    · intro hp
      rw [List.getElem?_append] at ho
      split at ho
      · exact hu x hx o ho p hp
      · rw [List.getElem?_singleton] at ho
        split at ho
        · cases ho
          simp [List.getElem?_replicate] at hp
        · cases ho
  | set k index name m =>
    simp only [EventPlain.step] at h
    cases hv : m.value with
    | error e => rw [hv] at h; cases h
    | ok v =>
      rw [hv] at h
      dsimp only at h
      cases hh : heldAt w.plain.objs k with
      | error e => rw [hh] at h; cases h
      | ok ev =>
        rw [hh] at h
        dsimp only at h
        obtain ⟨o, ho, rfl⟩ := held_obj hh
        cases hp : BeTree.setVariable o.obj index (some ⟨name, v⟩) with
        | error e => rw [hp] at h; cases h
        | ok ev =>
          rw [hp] at h
          cases h
          obtain ⟨hi, rfl⟩ := putAt_ok hp
          simp only [ObjMem.obj, List.length_map] at hi
          obtain ⟨R1, f1, f2⟩ := set_flat (optBlocks ObjMem.blocks) w.objs k (some o) ho
          obtain ⟨R2, g1, g2⟩ := set_flat slotBlocks o.slots index o.slots[index] (List.getElem?_eq_getElem hi)
          unfold EventWorld.step
          refine Does.seq (P := []) (L' := Objs.flat (st ++ wt) ++ (heldBlocks w.objs ++ L)) (.refl _) (makeVariable_does name m hv) ?_
          rintro ⟨x, i⟩ M ⟨rfl, hs, N, hM, hN⟩
          refine Does.lift (heldAt_of ho) ?_
          unfold ObjMem.setVariable
          rw [mem_assoc]
          refine Does.then (touchAll_does fun b hb => ?_) ?_
          · have : b ∈ heldBlocks w.objs := by
              refine List.mem_flatMap.mpr ⟨some o, List.mem_of_getElem? ho, ?_⟩
              simp only [optBlocks, obj_blocks]
              simp only [List.mem_cons, List.not_mem_nil, or_false] at hb
              rcases hb with rfl | rfl <;> simp
            simp [this]
          rw [mem_assoc]
          refine Does.lift (putAt_at _ hi) ?_
          rw [mem_pure_bind]
          refine Does.pure (.refl _) ⟨?_, rfl, st, wt, gn, N ++ (slotBlocks o.slots[index] ++ L), [], by simp [userOps, treeOps, doneIn], fun _ => ⟨rfl, rfl, rfl⟩, ?_, hw, ?_, ha, ?_, ?_⟩
          · simp [EventWorld.plain, ObjMem.obj, List.map_set]
          · refine List.Perm.trans ?_ (List.Perm.append_left _ ((f2 _).symm.append_right _))
            simp only [optBlocks, obj_blocks] at f1 ⊢
            have e1 : ((o.slots.set index (some ((⟨name, v⟩ : EventVar), i))).flatMap slotBlocks ++ slotBlocks o.slots[index]).Perm
                (i.blocks ++ o.slots.flatMap slotBlocks) := by
              refine ((g2 _).append_right _).trans (List.Perm.trans ?_ (List.Perm.append_left _ g1.symm))
              simp only [optBlocks]
              blocks
            refine (hM.append (List.Perm.append_left _ (f1.append_right _))).trans ?_
            refine List.Perm.trans ?_ (List.Perm.trans (List.Perm.append_left (N ++ (Objs.flat (st ++ wt) ++ (o.event :: o.array :: R1 ++ L))) e1.symm) ?_)
            · blocks
            · blocks
          · refine objsOk_set hok ?_
            rintro x ⟨⟩ p hpm
            rcases List.mem_or_eq_of_mem_set hpm with hpm | e
            · exact hok o (List.mem_of_getElem? ho) p hpm
            · cases e; exact hs
          · intro hn hu x hx y hy p
            rw [setAt, List.nodup_cons] at hn
            by_cases he : k = x.1
            · subst he
              rw [List.getElem?_set_self (by obtain ⟨hlt, _⟩ := List.getElem?_eq_some_iff.mp ho; exact hlt)] at hy
              cases hy
              have hne : index ≠ x.2 := by
                rintro rfl
                exact hn.1 hx
              rw [List.getElem?_set_ne hne]
              exact hu x (by simp [setAt, hx]) o ho p
            · rw [List.getElem?_set_ne he] at hy
              exact hu x (by simp [setAt, hx]) y hy p
          · intro hu _ hone _
            have : o.slots[index] = none := by
              cases hx : o.slots[index] with
              | none => rfl
              | some p => exact absurd (by rw [List.getElem?_eq_getElem hi, hx]) (hu (k, index) (by simp [setAt]) o ho p)
            rw [hN hone, this]
            rfl
  | search ks =>
    simp only [EventPlain.step] at h
    cases hp : w.plain.searches geo ks Report.empty with
    | error e => rw [hp] at h; cases h
    | ok q =>
      obtain ⟨w1, rep, bs⟩ := q
      rw [hp] at h
      cases h
      simp only [EventWorld.step, makeReportMem]
      rw [mem_assoc]
      refine Does.malloc fun rb => ?_
      rw [mem_pure_bind]
      refine Does.seq (P := (ReportImg.mk rb none).blocks ++ (heldBlocks w.objs ++ (Objs.flat (st ++ wt) ++ L))) (L' := []) ?_
        (heldSearches_does ks hw hok hsub (fun _ => rfl) hp) ?_
      · simp only [ReportImg.blocks, Option.toList]; blocks
      rintro ⟨w2, rep2, bs2, r2⟩ M ⟨rfl, k1, rfl, rfl, k2, k3, N, hM, hN⟩
      rw [List.append_nil]
      refine Does.seq hM (freeReport_does r2) ?_
      rintro _ _ rfl
      dsimp only at k1
      refine Does.pure (.refl _) ⟨rfl, rfl, st, wt, gn, N ++ L, [], by simp [userOps, treeOps, doneIn], fun _ => ⟨rfl, rfl, k1⟩, by blocks, by rw [k1]; exact hw, k2,
        by rw [k1]; exact ha, fun _ hu => k3 _ hu, fun _ _ _ han => ?_⟩
      rw [hN (han (.report rep2 bs2) (by simp))]
      rfl
  | «exists» k =>
    simp only [EventPlain.step] at h
    cases hh : heldAt w.plain.objs k with
    | error e => rw [hh] at h; cases h
    | ok ev =>
      rw [hh] at h
      dsimp only at h
      obtain ⟨o, ho, rfl⟩ := held_obj hh
      cases hs : w.plain.world.tree.existsObj geo o.obj with
      | error e => rw [hs] at h; cases h
      | ok q =>
        obtain ⟨b, ev⟩ := q
        rw [hs] at h
        cases h
        obtain ⟨R1, f1, f2⟩ := set_flat (optBlocks ObjMem.blocks) w.objs k (some o) ho
        unfold EventWorld.step
        refine Does.lift (heldAt_of ho) ?_
        refine Does.seq (P := o.blocks ++ (Objs.flat (st ++ wt) ++ (R1 ++ L))) (L' := []) ?_
          (existsObj_does hw (fun b hb => by simp [flat_append, hb]) (hok o (List.mem_of_getElem? ho)) hs) ?_
        · refine (List.Perm.append_left _ (f1.append_right _)).trans ?_
          simp only [optBlocks]
          blocks
        rintro ⟨b', o'⟩ M ⟨rfl, rfl, g2, g3, hM⟩
        refine Does.pure (.refl _) ⟨by simp [EventWorld.plain, List.map_set], rfl, st, wt, gn, L, [], by simp [userOps, treeOps, doneIn], fun _ => ⟨rfl, rfl, rfl⟩, ?_, hw,
          objsOk_set hok (by rintro x ⟨⟩; exact g2), ha, fun _ hu => unset_set hu ho g3, fun _ _ _ _ => rfl⟩
        rw [List.append_nil]
        refine hM.trans (List.Perm.trans ?_ (List.Perm.append_left _ ((f2 _).symm.append_right _)))
        simp only [optBlocks]
        blocks
  | free k =>
    simp only [EventPlain.step] at h
    cases hh : heldAt w.plain.objs k with
    | error e => rw [hh] at h; cases h
    | ok ev =>
      rw [hh] at h
      cases h
      obtain ⟨o, ho, rfl⟩ := held_obj hh
      obtain ⟨R1, f1, f2⟩ := set_flat (optBlocks ObjMem.blocks) w.objs k (some o) ho
      unfold EventWorld.step
      refine Does.lift (heldAt_of ho) ?_
      refine Does.seq (P := o.blocks) (L' := Objs.flat (st ++ wt) ++ (R1 ++ L)) ?_ (freeEvent_does o.img) ?_
      · refine (List.Perm.append_left _ (f1.append_right _)).trans ?_
        simp only [optBlocks]
        blocks
      rintro _ _ rfl
      refine Does.pure (.refl _) ⟨by simp [EventWorld.plain, List.map_set], rfl, st, wt, gn, L, [], by simp [userOps, treeOps, doneIn], fun _ => ⟨rfl, rfl, rfl⟩, ?_, hw,
        objsOk_set hok (by rintro x ⟨⟩), ha, fun _ hu x hx y hy p => ?_, fun _ _ _ _ => rfl⟩
      · refine List.Perm.trans ?_ (List.Perm.append_left _ ((f2 none).symm.append_right _))
        simp only [optBlocks]
        blocks
      · by_cases he : k = x.1
        · subst he
          rw [List.getElem?_set_self (by obtain ⟨hlt, _⟩ := List.getElem?_eq_some_iff.mp ho; exact hlt)] at hy
          cases hy
        · rw [List.getElem?_set_ne he] at hy
          exact hu x hx y hy p
  | loose name m =>
    simp only [EventPlain.step] at h
    cases hv : m.value with
    | error e => rw [hv] at h; cases h
    | ok v =>
      rw [hv] at h
      cases h
      unfold EventWorld.step
      refine Does.seq (P := []) (L' := Objs.flat (st ++ wt) ++ (heldBlocks w.objs ++ L)) (.refl _) (makeVariable_does name m hv) ?_
      rintro ⟨x, i⟩ M ⟨rfl, _, N, hM, hN⟩
      refine Does.seq (P := i.blocks) (L' := N ++ (Objs.flat (st ++ wt) ++ (heldBlocks w.objs ++ L))) ?_ (freeVariable_does i) ?_
      · refine (hM.append_right _).trans ?_
        blocks
      rintro _ _ rfl
      refine Does.pure (.refl _) ⟨rfl, rfl, st, wt, gn, N ++ L, [], by simp [userOps, treeOps, doneIn], fun _ => ⟨rfl, rfl, rfl⟩, by blocks, hw, hok, ha, fun _ hu => hu, fun _ _ hone _ => ?_⟩
      rw [hN hone]
      rfl

theorem heldSearches_world {geo : GeoTest} (ks : List Nat) : ∀ {w w' : EventPlain} {rep rep' : Report} {bs : List Bool},
    w.searches geo ks rep = .ok (w', rep', bs) → w'.world = w.world := by
  induction ks with
  | nil => intro w w' rep rep' bs h; cases h; rfl
  | cons k ks ih =>
    intro w w' rep rep' bs h
    simp only [EventPlain.searches] at h
    repeat' split at h
    all_goals first | (cases h; done) | skip
    rename_i hr
    cases h
    have := ih hr
    exact this

theorem eventStep_done {geo : GeoTest} {R : Rounding} {w w' : EventPlain} {o : EventOp} {as : List Answer}
    (h : w.step geo R o = .ok (w', as)) (os : List EventOp) (k : Nat) :
    k ∈ doneIn R w.world (treeOps (userOps (o :: os))) ↔
      k ∈ doneIn R w.world (treeOps (userOps [o])) ∨ k ∈ doneIn R w'.world (treeOps (userOps os)) := by
  have stay : w'.world = w.world → treeOps (userOps [o]) = [] → treeOps (userOps (o :: os)) = treeOps (userOps os) →
      (k ∈ doneIn R w.world (treeOps (userOps (o :: os))) ↔
      k ∈ doneIn R w.world (treeOps (userOps [o])) ∨ k ∈ doneIn R w'.world (treeOps (userOps os))) := by
    intro e1 e2 e3
    rw [e1, e2, e3]
    simp [doneIn]
  cases o with
  | user o =>
    simp only [EventPlain.step] at h
    split at h
    · cases h
    rename_i hu
    cases h
    cases o with
    | tree o =>
      simp only [TextWorld.userStep] at hu
      split at hu
      · cases hu
      rename_i hp
      cases hu
      simp only [userOps, treeOps, doneIn, hp, List.mem_append, List.append_nil]
    | search ts =>
      refine stay ?_ rfl rfl
      simp only [TextWorld.userStep] at hu
      split at hu
      · cases hu
      · cases hu; rfl
    | «exists» t =>
      refine stay ?_ rfl rfl
      simp only [TextWorld.userStep] at hu
      split at hu
      · cases hu
      · cases hu; rfl
  | search ks =>
    refine stay ?_ rfl rfl
    simp only [EventPlain.step] at h
    split at h
    · cases h
    rename_i hs
    cases h
    exact heldSearches_world ks hs
  | _ =>
    refine stay ?_ rfl rfl
    simp only [EventPlain.step] at h
    repeat' split at h
    all_goals (cases h; try rfl)

/-- a sequence of calls -/
theorem eventRun_does {geo : GeoTest} {R : Rounding} (os : List EventOp) :
    ∀ {w : EventWorld} {st wt gn : Objs} {dn L : List Nat} {w' : EventPlain} {as : List Answer}, Owned w.mem st wt gn dn → ObjsOk w.objs →
    Ahead w.mem wt (treeOps (userOps os)) → w.plain.run geo R os = .ok (w', as) →
    Does (w.run geo R os) (Objs.flat (st ++ wt) ++ (heldBlocks w.objs ++ L)) (fun x M => x.1.plain = w' ∧ x.2 = as ∧
      ∃ st' wt' gn' L' dn', (∀ k, k ∈ dn' ↔ k ∈ doneIn R w.mem.world (treeOps (userOps os))) ∧
      M.Perm (Objs.flat (st' ++ wt') ++ (heldBlocks x.1.objs ++ L')) ∧ Owned x.1.mem st' wt' gn' (dn' ++ dn) ∧ ObjsOk x.1.objs ∧
      ((setAt os).Nodup → Unset w.objs (setAt os) → (∀ o' ∈ treeOps (userOps os), Clean o') → (∀ o' ∈ os, o'.MadeOnce) →
        (∀ a ∈ as, Answered a) → L' = L)) := by
  induction os with
  | nil =>
    intro w st wt gn dn L w' as hw hok ha h
    cases h
    exact Does.pure (.refl _) ⟨rfl, rfl, st, wt, gn, L, [], by simp [userOps, treeOps, doneIn], .refl _, hw, hok, fun _ _ _ _ _ => rfl⟩
  | cons o os ih =>
    intro w st wt gn dn L w' as hw hok ha h
    simp only [EventPlain.run] at h
    cases hs : w.plain.step geo R o with
    | error x => rw [hs] at h; cases h
    | ok p =>
      obtain ⟨w1, a1⟩ := p
      rw [hs] at h
      dsimp only at h
      cases hs2 : w1.run geo R os with
      | error x => rw [hs2] at h; cases h
      | ok p2 =>
        obtain ⟨w2, a2⟩ := p2
        rw [hs2] at h
        cases h
        unfold EventWorld.run
        refine Does.seq (P := Objs.flat (st ++ wt) ++ (heldBlocks w.objs ++ L)) (L' := []) (by simp) (eventStep_does hw hok ha hs) ?_
        rintro ⟨x1, b1⟩ M ⟨rfl, rfl, st1, wt1, gn1, L1, dn1, hd1, _, hM1, hw1, hok1, ha1, hu1, hc1⟩
        refine Does.seq (P := Objs.flat (st1 ++ wt1) ++ (heldBlocks x1.objs ++ L1)) (L' := []) (by simpa using hM1) (ih hw1 hok1 ha1 hs2) ?_
        rintro ⟨x2, b2⟩ M2 ⟨rfl, rfl, st2, wt2, gn2, L2, dn2, hd2, hM2, hw2, hok2, hc2⟩
        refine Does.pure (L' := M2) (by simp) ⟨rfl, rfl, st2, wt2, gn2, L2, dn2 ++ dn1, ?_, hM2, by rw [List.append_assoc]; exact hw2, hok2, ?_⟩
        · intro k
          rw [List.mem_append, hd2, hd1, Or.comm]
          exact (eventStep_done hs os k).symm
        · intro hn hu hcl hone han
          have hcl1 : ∀ o' ∈ treeOps (userOps [o]), Clean o' := by
            intro o' ho'
            refine hcl o' ?_
            cases o <;> simp only [userOps, treeOps, List.not_mem_nil] at ho' ⊢
            rw [treeOps_user]
            exact List.mem_append_left _ ho'
          have hcl2 : ∀ o' ∈ treeOps (userOps os), Clean o' := by
            intro o' ho'
            refine hcl o' ?_
            cases o <;> simp only [userOps] <;> try exact ho'
            rw [treeOps_user]
            exact List.mem_append_right _ ho'
          have hn2 : (setAt os).Nodup := by
            cases o <;> simp only [setAt] at hn <;> try exact hn
            exact (List.nodup_cons.mp hn).2
          rw [hc2 hn2 (hu1 hn hu) hcl2 (fun o' ho' => hone o' (by simp [ho'])) (fun a hx => han a (by simp [hx])),
            hc1 hu hcl1 (hone o (by simp)) (fun a hx => han a (by simp [hx]))]

theorem freeObjs_does (objs : List (Option ObjMem)) : Gone (freeObjs objs) (heldBlocks objs) := by
  induction objs with
  | nil => exact Does.pure (.refl _) rfl
  | cons o os ih =>
    cases o with
    | none => exact ih
    | some o => exact Gone.then (freeEvent_does o.img) ih (.refl _)

end BeTree
