import Verif.Spec.Memory
import Verif.Lemmas.XxSound
import Mathlib.Data.List.Forall2
/-
Programs on the heap, and the parser as one.
-/
namespace BeTree

/-! ### what a program does to the blocks it owns -/

/-- The program needs no blocks but those in `L` and those it allocates itself, which may be any others; it does not fail, and what it gives
and the blocks it then has are described by `Q`. -/
def Does {α : Type} : Mem α → List Nat → (α → List Nat → Prop) → Prop
  | .done a, L, Q => ∃ L', L.Perm L' ∧ Q a L'
  | .malloc k, L, Q => ∀ b, b ∉ L → Does (k b) (b :: L) Q
  | .free b k, L, Q => ∃ L', L.Perm (b :: L') ∧ Does k L' Q
  | .touch b k, L, Q => b ∈ L ∧ Does k L Q
  | .fault _, _, _ => False

theorem Holds.perm {h : Heap} {L L' : List Nat} (hh : Holds h L) (hp : L.Perm L') : Holds h L' :=
  ⟨hh.1.trans hp, hp.nodup_iff.mp hh.2.1, fun b hb => hh.2.2 b (hp.mem_iff.mpr hb)⟩

/-- equal multisets of blocks, by counting -/
macro "blocks" : tactic => `(tactic| (
  rw [List.perm_iff_count]; intro x
  simp only [List.count_cons, List.count_append, List.count_nil, List.append_nil, List.nil_append, List.cons_append]
  try omega))

theorem mem_assoc {α β γ : Type} (p : Mem α) (f : α → Mem β) (g : β → Mem γ) : (p >>= f) >>= g = p >>= fun a => f a >>= g := by
  show (p.bind f).bind g = p.bind fun a => (f a).bind g
  induction p with
  | done a => rfl
  | malloc k ih => simp only [Mem.bind]; exact congrArg _ (funext fun b => ih b)
  | free b k ih => simp only [Mem.bind, ih]
  | touch b k ih => simp only [Mem.bind, ih]
  | fault e => rfl

theorem mem_bind_pure {α : Type} (p : Mem α) : p >>= pure = p := by
  show p.bind Mem.done = p
  induction p with
  | done a => rfl
  | malloc k ih => simp only [Mem.bind]; exact congrArg _ (funext fun b => ih b)
  | free b k ih => simp only [Mem.bind, ih]
  | touch b k ih => simp only [Mem.bind, ih]
  | fault e => rfl

instance : LawfulMonad Mem := LawfulMonad.mk' Mem (fun x => mem_bind_pure x) (fun _ _ => rfl) (fun x f g => mem_assoc x f g)

theorem mem_bind {α β : Type} (p : Mem α) (f : α → Mem β) (h : Heap) :
    (p >>= f) h = (match p h with | .error e => .error e | .ok (a, h') => f a h') := by
  show (p.bind f).run h = _
  induction p generalizing h with
  | done a => rfl
  | malloc k ih => simp only [Mem.bind, Mem.run]; exact ih _ _
  | free b k ih =>
    simp only [Mem.bind, Mem.run]
    split
    · exact ih _
    · rfl
  | touch b k ih =>
    simp only [Mem.bind, Mem.run]
    split
    · exact ih _
    · rfl
  | fault e => rfl

section
variable {α β : Type} {Q : α → List Nat → Prop} {L L' : List Nat}

theorem Does.perm {p : Mem α} (hd : Does p L Q) (hp : L'.Perm L) : Does p L' Q := by
  induction p generalizing L L' with
  | done a =>
    obtain ⟨M, hM, hq⟩ := hd
    exact ⟨M, hp.trans hM, hq⟩
  | malloc k ih => exact fun b hb => ih b (hd b fun hm => hb (hp.mem_iff.mpr hm)) (hp.cons b)
  | free b k ih =>
    obtain ⟨M, hM, hk⟩ := hd
    exact ⟨M, hp.trans hM, hk⟩
  | touch b k ih => exact ⟨hp.mem_iff.mpr hd.1, ih hd.2 hp⟩
  | fault e => exact hd

theorem Does.pure {a : α} (hp : L.Perm L') (hq : Q a L') : Does (Pure.pure a) L Q := ⟨L', hp, hq⟩

theorem Does.mono {p : Mem α} {Q' : α → List Nat → Prop} (hd : Does p L Q) (hq : ∀ a M, Q a M → Q' a M) : Does p L Q' := by
  induction p generalizing L with
  | done a =>
    obtain ⟨M, hM, h⟩ := hd
    exact ⟨M, hM, hq _ _ h⟩
  | malloc k ih => exact fun b hb => ih b (hd b hb)
  | free b k ih =>
    obtain ⟨M, hM, hk⟩ := hd
    exact ⟨M, hM, ih hk⟩
  | touch b k ih => exact ⟨hd.1, ih hd.2⟩
  | fault e => exact hd

theorem malloc_holds {h : Heap} {F : List Nat} (hh : Holds h F) :
    Holds { next := h.next + 1, live := h.next :: h.live } (h.next :: F) := by
  refine ⟨hh.1.cons _, List.nodup_cons.mpr ⟨fun hm => Nat.lt_irrefl _ (hh.2.2 _ hm), hh.2.1⟩, ?_⟩
  intro b hb
  rcases List.mem_cons.mp hb with rfl | hb
  · exact Nat.lt_succ_self _
  · exact Nat.lt_succ_of_lt (hh.2.2 b hb)

theorem free_holds {h : Heap} {b : Nat} {F : List Nat} (hh : Holds h (b :: F)) :
    b ∈ h.live ∧ Holds { h with live := h.live.erase b } F := by
  have hm : b ∈ h.live := hh.1.mem_iff.mpr (by simp)
  refine ⟨hm, ?_, (List.nodup_cons.mp hh.2.1).2, fun c hc => hh.2.2 c (by simp [hc])⟩
  have := hh.1.erase b
  simpa using this

/-- run alone on a heap with the blocks `L` and others, the program does not fail, and leaves the others and a list described by `Q` -/
theorem Does.run {p : Mem α} (hd : Does p L Q) (h : Heap) (F : List Nat) (hh : Holds h (L ++ F)) :
    ∃ a h' L', p h = .ok (a, h') ∧ Q a L' ∧ Holds h' (L' ++ F) := by
  induction p generalizing L h with
  | done a =>
    obtain ⟨M, hM, hq⟩ := hd
    exact ⟨a, h, M, rfl, hq, hh.perm (hM.append_right F)⟩
  | malloc k ih =>
    exact ih h.next (hd h.next fun hm => Nat.lt_irrefl _ (hh.2.2 _ (by simp [hm]))) _ (malloc_holds hh)
  | free b k ih =>
    obtain ⟨M, hM, hk⟩ := hd
    obtain ⟨h1, h2⟩ := free_holds (hh.perm (hM.append_right F))
    simp only [Mem.run, if_pos h1]
    exact ih hk _ h2
  | touch b k ih =>
    simp only [Mem.run, if_pos (hh.1.mem_iff.mpr (List.mem_append_left F hd.1))]
    exact ih hd.2 _ hh
  | fault e => exact hd.elim

theorem Does.malloc {f : Nat → Mem α} (H : ∀ b, Does (f b) (b :: L) Q) : Does (BeTree.malloc >>= f) L Q := fun b _ => H b

theorem Does.free {f : Unit → Mem α} {b : Nat} (hp : L.Perm (b :: L')) (H : Does (f ()) L' Q) : Does (bfree b >>= f) L Q := ⟨L', hp, H⟩

theorem Does.freeLast {b : Nat} (hp : L.Perm [b]) : Does (bfree b) L (fun _ M => M = []) := ⟨[], hp, [], .refl _, rfl⟩

theorem Does.seq {p : Mem β} {f : β → Mem α} {P : List Nat} {Q' : β → List Nat → Prop} (hp : L.Perm (P ++ L')) (hd : Does p P Q')
    (H : ∀ a M, Q' a M → Does (f a) (M ++ L') Q) : Does (p >>= f) L Q := by
  refine Does.perm (L := P ++ L') ?_ hp
  clear hp
  show Does (p.bind f) (P ++ L') Q
  induction p generalizing P with
  | done a =>
    obtain ⟨M, hM, hq⟩ := hd
    exact (H a M hq).perm (hM.append_right L')
  | malloc k ih => exact fun b hb => ih b (hd b fun hm => hb (by simp [hm]))
  | free b k ih =>
    obtain ⟨M, hM, hk⟩ := hd
    exact ⟨M ++ L', hM.append_right L', ih hk⟩
  | touch b k ih => exact ⟨by simp [hd.1], ih hd.2⟩
  | fault e => exact hd

theorem Does.realloc {f : Nat → Mem α} {b : Nat} (hp : L.Perm (b :: L')) (H : ∀ c, Does (f c) (c :: L') Q) :
    Does (brealloc b >>= f) L Q := ⟨L', hp, fun c _ => H c⟩

end

/-! ### freeing gives back every block -/

abbrev Gone (p : Mem Unit) (L : List Nat) : Prop := Does p L (fun _ M => M = [])

theorem freeOpt_does (o : Option Nat) : Gone (freeOpt o) o.toList := by
  cases o with
  | none => exact Does.pure (by simp) rfl
  | some b => exact Does.freeLast (by simp)

theorem freeStrings_does (ss : List Nat) : Gone (freeStrings ss) ss := by
  induction ss with
  | nil => exact Does.pure (.refl _) rfl
  | cons b bs ih => exact Does.free (.refl _) ih

/-- first one program that gives back its blocks, then another -/
theorem Gone.then {p q : Mem Unit} {P R L : List Nat} (hp : Gone p P) (hq : Gone q R) (h : L.Perm (P ++ R)) :
    Gone (p >>= fun _ => q) L :=
  Does.seq h hp (fun _ _ hM => by subst hM; exact hq)

theorem freeListImg_does (l : ListImg) : Gone (freeListImg l) l.blocks := by
  cases l with
  | ints l a => exact Does.free (List.Perm.swap _ _ _) (Does.freeLast (.refl _))
  | strs l a ss =>
    exact Gone.then (R := [a, l]) (freeStrings_does ss) (Does.free (.refl _) (Does.freeLast (.refl _))) (by simp only [ListImg.blocks]; blocks)
  | name b => exact Does.freeLast (.refl _)

theorem freeLeaf_does (l : LeafImg) : Gone (freeLeaf l) l.blocks := by
  cases l with
  | isNull a => exact Does.freeLast (.refl _)
  | compare a => exact Does.freeLast (.refl _)
  | equality a s => exact Does.free (.refl _) (freeOpt_does s)
  | boolVar a => exact Does.freeLast (.refl _)
  | boolLit => exact Does.pure (.refl _) rfl
  | set l r => exact Gone.then (freeOpt_does l) (freeListImg_does r) (.refl _)
  | list a v => exact Gone.then (R := [a]) (freeListImg_does v) (Does.freeLast (.refl _)) (by simp only [LeafImg.blocks]; blocks)
  | freq a n s => exact Does.free (.refl _) (Does.free (.refl _) (Does.freeLast (.refl _)))
  | segment a n => exact Does.free (.refl _) (Does.freeLast (.refl _))
  | geo a b => exact Does.free (.refl _) (Does.freeLast (.refl _))
  | str a p => exact Does.free (.refl _) (Does.freeLast (.refl _))

theorem freeAst_does (i : Img) : Gone (freeAst i) i.blocks := by
  induction i with
  | leaf n l => exact Gone.then (R := [n]) (freeLeaf_does l) (Does.freeLast (.refl _)) (by simp only [Img.blocks]; blocks)
  | not n e ih => exact Gone.then (R := [n]) ih (Does.freeLast (.refl _)) (by simp only [Img.blocks]; blocks)
  | bin n l r ihl ihr =>
    refine Gone.then (R := r.blocks ++ [n]) ihl ?_ (by simp only [Img.blocks]; blocks)
    exact Gone.then (R := [n]) ihr (Does.freeLast (.refl _)) (.refl _)

/-! ### the actions of the parser -/

def MVal.blocks : MVal → List Nat
  | .plain => []
  | .one b => [b]
  | .opt b => b.toList
  | .lst l => l.blocks
  | .node i => i.blocks

/-- a semantic value and its blocks, by the symbol of the grammar they belong to -/
def FitsImg (X : Nat) (v : PVal) (m : MVal) : Prop :=
  match X with
  | 33 | 34 | 39 => ∃ s b, v = .string s ∧ m = .one b
  | 42 => ∃ s b, v = .strVal s ∧ m = .one b
  | 53 => ∃ x b, v = .var x ∧ m = .one b
  | 43 | 44 => ∃ c l a, v = .ints c ∧ m = .lst (.ints l a)
  | 45 | 46 => ∃ c l a ss, v = .strs c ∧ m = .lst (.strs l a ss) ∧ ss.length = c.length
  | 51 => ∃ c o, v = .eq c ∧ m = .opt o ∧ o.toList.length = eqBlocks c
  | 54 => ∃ c o, v = .setLeft c ∧ m = .opt o ∧ o.toList.length = setLeftBlocks c
  | 55 => ∃ c l, v = .setRight c ∧ m = .lst l ∧ l.blocks.length = setRightBlocks c
  | 57 => ∃ c l, v = .list c ∧ m = .lst l ∧ l.blocks.length = listBlocks c
  | 38 | 47 | 48 | 50 | 52 | 56 | 58 | 59 | 60 | 61 | 62 | 63 | 64 => ∃ e i, v = .node e ∧ m = .node i ∧ i.blocks.length = exprBlocks e
  | 35 | 40 => (∃ n, v = .int n) ∧ m = .plain
  | 36 | 41 => (∃ n, v = .float n) ∧ m = .plain
  | 49 => (∃ c, v = .cmp c) ∧ m = .plain
  | _ => v = .token ∧ m = .plain

/-- the program leaves the blocks of its result, which is as described -/
abbrev Gives (p : Mem MVal) (L : List Nat) (P : MVal → Prop) : Prop := Does p L (fun m M => M.Perm m.blocks ∧ P m)

theorem Gives.pure {m : MVal} {L : List Nat} {P : MVal → Prop} (h : L.Perm m.blocks) (hP : P m) : Gives (Pure.pure m) L P :=
  Does.pure h ⟨.refl _, hP⟩

theorem memNamed_does (x : Nat) (mk : Nat → LeafImg) (K : List Nat) (hmk : ∀ a, (mk a).blocks = a :: K) :
    Gives (memNamed x mk) (x :: K) (fun m => ∃ n a, m = .node (.leaf n (mk a))) := by
  refine Does.malloc fun n => Does.malloc fun a => Does.free (L' := a :: n :: K) (by blocks) (Gives.pure ?_ ⟨n, a, rfl⟩)
  simp only [MVal.blocks, Img.blocks, hmk]; blocks

theorem memBinary_does (sw : Bool) (l r : Img) :
    Gives (memBinary sw l r) (l.blocks ++ r.blocks) (fun m => ∃ i, m = .node i ∧ i.blocks.length = 1 + l.blocks.length + r.blocks.length) := by
  refine Does.malloc fun n => Gives.pure ?_ ⟨_, rfl, ?_⟩
  · cases sw <;> simp only [MVal.blocks, Img.blocks, if_true, if_false, Bool.false_eq_true] <;> blocks
  · cases sw <;> simp only [Img.blocks, if_true, if_false, Bool.false_eq_true, List.length_cons, List.length_append] <;> omega

theorem memString_does (x s : Nat) : Gives (memString x s) [x, s] (fun m => ∃ n a p, m = .node (.leaf n (.str a p))) := by
  refine Does.malloc fun n => Does.malloc fun a => Does.malloc fun p => Does.free (L' := [p, a, n, s]) (by blocks)
    (Does.free (L' := [p, a, n]) (by blocks) (Gives.pure ?_ ⟨n, a, p, rfl⟩))
  simp only [MVal.blocks, Img.blocks, LeafImg.blocks]; blocks

theorem memSegment_does (x : Option Nat) : Gives (memSegment x) x.toList (fun m => ∃ n a p, m = .node (.leaf n (.segment a p))) := by
  refine Does.malloc fun n => Does.malloc fun a => Does.malloc fun p =>
    Does.seq (L' := [p, a, n]) (by blocks) (freeOpt_does x) fun _ M hM => Gives.pure ?_ ⟨n, a, p, rfl⟩
  subst hM
  simp only [MVal.blocks, Img.blocks, LeafImg.blocks]; blocks

theorem memGeo_does : Gives memGeo [] (fun m => ∃ n a p, m = .node (.leaf n (.geo a p))) := by
  refine Does.malloc fun n => Does.malloc fun a => Does.malloc fun p => Gives.pure ?_ ⟨n, a, p, rfl⟩
  simp only [MVal.blocks, Img.blocks, LeafImg.blocks]; blocks

theorem memFrequency_does (x s : Nat) : Gives (memFrequency x s) [x, s] (fun m => ∃ n a p, m = .node (.leaf n (.freq a p s))) := by
  refine Does.malloc fun n => Does.malloc fun a => Does.malloc fun p => Does.free (L' := [p, a, n, s]) (by blocks)
    (Gives.pure ?_ ⟨n, a, p, rfl⟩)
  simp only [MVal.blocks, Img.blocks, LeafImg.blocks]; blocks

theorem memLiteral_does : Gives memLiteral [] (fun m => ∃ n, m = .node (.leaf n .boolLit)) :=
  Does.malloc fun n => Gives.pure (.refl _) ⟨n, rfl⟩

theorem memSet_does (l : Option Nat) (r : ListImg) : Gives (memSet l r) (l.toList ++ r.blocks) (fun m => ∃ n, m = .node (.leaf n (.set l r))) :=
  Does.malloc fun n => Gives.pure (.refl _) ⟨n, rfl⟩

theorem memCopy_does (b : Nat) : Gives (do let s ← malloc; bfree b; pure (.one s)) [b] (fun m => ∃ s, m = .one s) :=
  Does.malloc fun s => Does.free (L' := [s]) (by blocks) (Gives.pure (.refl _) ⟨s, rfl⟩)

theorem Gives.perm {p : Mem MVal} {L L' : List Nat} {P P' : MVal → Prop} (hd : Gives p L P) (hp : L'.Perm L) (h : ∀ m, P m → P' m) :
    Gives p L' P' :=
  (Does.perm hd hp).mono (fun m M hM => ⟨hM.1, h m hM.2⟩)

/-- counting the blocks of values -/
macro "sizes" : tactic => `(tactic| (
  (try simp only [MVal.blocks, Img.blocks, LeafImg.blocks, ListImg.blocks, exprBlocks, predBlocks, eqBlocks, setLeftBlocks,
    setRightBlocks, listBlocks, mkFrequency, mkSegment, mkGeo, List.length_cons, List.length_append, List.length_nil, Option.toList] at *)
  try omega))

set_option linter.unusedSimpArgs false

theorem xxm_2 {us : List (PVal × MVal)} (sw : Bool) (hf : List.Forall₂ (fun X (w : PVal × MVal) => FitsImg X w.1 w.2) [47] us) :
    ∃ v, xxAction 2 (us.map Prod.fst) = .ok v ∧
      Gives (xxMem sw 2 (us.map Prod.snd)) (us.flatMap fun w => w.2.blocks) (fun m => FitsImg 38 v m) := by
  simp only [List.forall₂_cons_left_iff, List.forall₂_nil_left_iff] at hf
  obtain ⟨⟨v0, m0⟩, _, f0, rfl, rfl⟩ := hf
  obtain ⟨e0, i0, rfl, rfl, n0⟩ : ∃ e i, v0 = PVal.node e ∧ m0 = MVal.node i ∧ i.blocks.length = exprBlocks e := f0
  refine ⟨_, rfl, ?_⟩
  exact Gives.pure (by simp only [List.flatMap_cons, List.flatMap_nil, MVal.blocks, ListImg.blocks, Option.toList]; blocks) ⟨_, _, rfl, rfl, by sizes⟩

theorem xxm_3 {us : List (PVal × MVal)} (sw : Bool) (hf : List.Forall₂ (fun X (w : PVal × MVal) => FitsImg X w.1 w.2) [34] us) :
    ∃ v, xxAction 3 (us.map Prod.fst) = .ok v ∧
      Gives (xxMem sw 3 (us.map Prod.snd)) (us.flatMap fun w => w.2.blocks) (fun m => FitsImg 39 v m) := by
  simp only [List.forall₂_cons_left_iff, List.forall₂_nil_left_iff] at hf
  obtain ⟨⟨v0, m0⟩, _, f0, rfl, rfl⟩ := hf
  obtain ⟨x0, b0, rfl, rfl⟩ : ∃ s b, v0 = PVal.string s ∧ m0 = MVal.one b := f0
  refine ⟨_, rfl, ?_⟩
  exact Gives.pure (by simp only [List.flatMap_cons, List.flatMap_nil, MVal.blocks, ListImg.blocks, Option.toList]; blocks) ⟨_, _, rfl, rfl⟩

theorem xxm_4 {us : List (PVal × MVal)} (sw : Bool) (hf : List.Forall₂ (fun X (w : PVal × MVal) => FitsImg X w.1 w.2) [35] us) :
    ∃ v, xxAction 4 (us.map Prod.fst) = .ok v ∧
      Gives (xxMem sw 4 (us.map Prod.snd)) (us.flatMap fun w => w.2.blocks) (fun m => FitsImg 40 v m) := by
  simp only [List.forall₂_cons_left_iff, List.forall₂_nil_left_iff] at hf
  obtain ⟨⟨v0, m0⟩, _, f0, rfl, rfl⟩ := hf
  obtain ⟨⟨x0, rfl⟩, rfl⟩ : (∃ n, v0 = PVal.int n) ∧ m0 = MVal.plain := f0
  refine ⟨_, rfl, ?_⟩
  exact Gives.pure (by simp only [List.flatMap_cons, List.flatMap_nil, MVal.blocks, ListImg.blocks, Option.toList]; blocks) ⟨⟨_, rfl⟩, rfl⟩

theorem xxm_5 {us : List (PVal × MVal)} (sw : Bool) (hf : List.Forall₂ (fun X (w : PVal × MVal) => FitsImg X w.1 w.2) [3, 35] us) :
    ∃ v, xxAction 5 (us.map Prod.fst) = .ok v ∧
      Gives (xxMem sw 5 (us.map Prod.snd)) (us.flatMap fun w => w.2.blocks) (fun m => FitsImg 40 v m) := by
  simp only [List.forall₂_cons_left_iff, List.forall₂_nil_left_iff] at hf
  obtain ⟨⟨v0, m0⟩, _, f0, ⟨⟨v1, m1⟩, _, f1, rfl, rfl⟩, rfl⟩ := hf
  obtain ⟨rfl, rfl⟩ : v0 = PVal.token ∧ m0 = MVal.plain := f0
  obtain ⟨⟨x1, rfl⟩, rfl⟩ : (∃ n, v1 = PVal.int n) ∧ m1 = MVal.plain := f1
  refine ⟨_, rfl, ?_⟩
  exact Gives.pure (by simp only [List.flatMap_cons, List.flatMap_nil, MVal.blocks, ListImg.blocks, Option.toList]; blocks) ⟨⟨_, rfl⟩, rfl⟩

theorem xxm_6 {us : List (PVal × MVal)} (sw : Bool) (hf : List.Forall₂ (fun X (w : PVal × MVal) => FitsImg X w.1 w.2) [36] us) :
    ∃ v, xxAction 6 (us.map Prod.fst) = .ok v ∧
      Gives (xxMem sw 6 (us.map Prod.snd)) (us.flatMap fun w => w.2.blocks) (fun m => FitsImg 41 v m) := by
  simp only [List.forall₂_cons_left_iff, List.forall₂_nil_left_iff] at hf
  obtain ⟨⟨v0, m0⟩, _, f0, rfl, rfl⟩ := hf
  obtain ⟨⟨x0, rfl⟩, rfl⟩ : (∃ n, v0 = PVal.float n) ∧ m0 = MVal.plain := f0
  refine ⟨_, rfl, ?_⟩
  exact Gives.pure (by simp only [List.flatMap_cons, List.flatMap_nil, MVal.blocks, ListImg.blocks, Option.toList]; blocks) ⟨⟨_, rfl⟩, rfl⟩

theorem xxm_7 {us : List (PVal × MVal)} (sw : Bool) (hf : List.Forall₂ (fun X (w : PVal × MVal) => FitsImg X w.1 w.2) [3, 36] us) :
    ∃ v, xxAction 7 (us.map Prod.fst) = .ok v ∧
      Gives (xxMem sw 7 (us.map Prod.snd)) (us.flatMap fun w => w.2.blocks) (fun m => FitsImg 41 v m) := by
  simp only [List.forall₂_cons_left_iff, List.forall₂_nil_left_iff] at hf
  obtain ⟨⟨v0, m0⟩, _, f0, ⟨⟨v1, m1⟩, _, f1, rfl, rfl⟩, rfl⟩ := hf
  obtain ⟨rfl, rfl⟩ : v0 = PVal.token ∧ m0 = MVal.plain := f0
  obtain ⟨⟨x1, rfl⟩, rfl⟩ : (∃ n, v1 = PVal.float n) ∧ m1 = MVal.plain := f1
  refine ⟨_, rfl, ?_⟩
  exact Gives.pure (by simp only [List.flatMap_cons, List.flatMap_nil, MVal.blocks, ListImg.blocks, Option.toList]; blocks) ⟨⟨_, rfl⟩, rfl⟩

theorem xxm_8 {us : List (PVal × MVal)} (sw : Bool) (hf : List.Forall₂ (fun X (w : PVal × MVal) => FitsImg X w.1 w.2) [33] us) :
    ∃ v, xxAction 8 (us.map Prod.fst) = .ok v ∧
      Gives (xxMem sw 8 (us.map Prod.snd)) (us.flatMap fun w => w.2.blocks) (fun m => FitsImg 42 v m) := by
  simp only [List.forall₂_cons_left_iff, List.forall₂_nil_left_iff] at hf
  obtain ⟨⟨v0, m0⟩, _, f0, rfl, rfl⟩ := hf
  obtain ⟨x0, b0, rfl, rfl⟩ : ∃ s b, v0 = PVal.string s ∧ m0 = MVal.one b := f0
  refine ⟨_, rfl, ?_⟩
  refine Gives.perm (memCopy_does b0) (by simp only [List.flatMap_cons, List.flatMap_nil, MVal.blocks, ListImg.blocks, Option.toList]; blocks) ?_
  rintro m ⟨s, rfl⟩
  exact ⟨_, _, rfl, rfl⟩

theorem xxm_9 {us : List (PVal × MVal)} (sw : Bool) (hf : List.Forall₂ (fun X (w : PVal × MVal) => FitsImg X w.1 w.2) [10, 44, 11] us) :
    ∃ v, xxAction 9 (us.map Prod.fst) = .ok v ∧
      Gives (xxMem sw 9 (us.map Prod.snd)) (us.flatMap fun w => w.2.blocks) (fun m => FitsImg 43 v m) := by
  simp only [List.forall₂_cons_left_iff, List.forall₂_nil_left_iff] at hf
  obtain ⟨⟨v0, m0⟩, _, f0, ⟨⟨v1, m1⟩, _, f1, ⟨⟨v2, m2⟩, _, f2, rfl, rfl⟩, rfl⟩, rfl⟩ := hf
  obtain ⟨rfl, rfl⟩ : v0 = PVal.token ∧ m0 = MVal.plain := f0
  obtain ⟨c1, l1, a1, rfl, rfl⟩ : ∃ c l a, v1 = PVal.ints c ∧ m1 = MVal.lst (.ints l a) := f1
  obtain ⟨rfl, rfl⟩ : v2 = PVal.token ∧ m2 = MVal.plain := f2
  refine ⟨_, rfl, ?_⟩
  exact Gives.pure (by simp only [List.flatMap_cons, List.flatMap_nil, MVal.blocks, ListImg.blocks, Option.toList]; blocks) ⟨_, _, _, rfl, rfl⟩

theorem xxm_10 {us : List (PVal × MVal)} (sw : Bool) (hf : List.Forall₂ (fun X (w : PVal × MVal) => FitsImg X w.1 w.2) [40] us) :
    ∃ v, xxAction 10 (us.map Prod.fst) = .ok v ∧
      Gives (xxMem sw 10 (us.map Prod.snd)) (us.flatMap fun w => w.2.blocks) (fun m => FitsImg 44 v m) := by
  simp only [List.forall₂_cons_left_iff, List.forall₂_nil_left_iff] at hf
  obtain ⟨⟨v0, m0⟩, _, f0, rfl, rfl⟩ := hf
  obtain ⟨⟨x0, rfl⟩, rfl⟩ : (∃ n, v0 = PVal.int n) ∧ m0 = MVal.plain := f0
  refine ⟨_, rfl, ?_⟩
  exact Does.malloc fun l => Does.malloc fun a => Gives.pure (by simp only [List.flatMap_cons, List.flatMap_nil, MVal.blocks, ListImg.blocks, Img.blocks]; blocks) ⟨_, _, _, rfl, rfl⟩

theorem xxm_11 {us : List (PVal × MVal)} (sw : Bool) (hf : List.Forall₂ (fun X (w : PVal × MVal) => FitsImg X w.1 w.2) [44, 12, 40] us) :
    ∃ v, xxAction 11 (us.map Prod.fst) = .ok v ∧
      Gives (xxMem sw 11 (us.map Prod.snd)) (us.flatMap fun w => w.2.blocks) (fun m => FitsImg 44 v m) := by
  simp only [List.forall₂_cons_left_iff, List.forall₂_nil_left_iff] at hf
  obtain ⟨⟨v0, m0⟩, _, f0, ⟨⟨v1, m1⟩, _, f1, ⟨⟨v2, m2⟩, _, f2, rfl, rfl⟩, rfl⟩, rfl⟩ := hf
  obtain ⟨c0, l0, a0, rfl, rfl⟩ : ∃ c l a, v0 = PVal.ints c ∧ m0 = MVal.lst (.ints l a) := f0
  obtain ⟨rfl, rfl⟩ : v1 = PVal.token ∧ m1 = MVal.plain := f1
  obtain ⟨⟨x2, rfl⟩, rfl⟩ : (∃ n, v2 = PVal.int n) ∧ m2 = MVal.plain := f2
  refine ⟨_, rfl, ?_⟩
  exact Does.realloc (L' := [l0]) (by simp only [List.flatMap_cons, List.flatMap_nil, MVal.blocks, ListImg.blocks, Img.blocks]; blocks) fun a => Gives.pure (by simp only [List.flatMap_cons, List.flatMap_nil, MVal.blocks, ListImg.blocks, Img.blocks]; blocks) ⟨_, _, _, rfl, rfl⟩

theorem xxm_12 {us : List (PVal × MVal)} (sw : Bool) (hf : List.Forall₂ (fun X (w : PVal × MVal) => FitsImg X w.1 w.2) [10, 46, 11] us) :
    ∃ v, xxAction 12 (us.map Prod.fst) = .ok v ∧
      Gives (xxMem sw 12 (us.map Prod.snd)) (us.flatMap fun w => w.2.blocks) (fun m => FitsImg 45 v m) := by
  simp only [List.forall₂_cons_left_iff, List.forall₂_nil_left_iff] at hf
  obtain ⟨⟨v0, m0⟩, _, f0, ⟨⟨v1, m1⟩, _, f1, ⟨⟨v2, m2⟩, _, f2, rfl, rfl⟩, rfl⟩, rfl⟩ := hf
  obtain ⟨rfl, rfl⟩ : v0 = PVal.token ∧ m0 = MVal.plain := f0
  obtain ⟨c1, l1, a1, s1, rfl, rfl, n1⟩ : ∃ c l a ss, v1 = PVal.strs c ∧ m1 = MVal.lst (.strs l a ss) ∧ ss.length = c.length := f1
  obtain ⟨rfl, rfl⟩ : v2 = PVal.token ∧ m2 = MVal.plain := f2
  refine ⟨_, rfl, ?_⟩
  exact Gives.pure (by simp only [List.flatMap_cons, List.flatMap_nil, MVal.blocks, ListImg.blocks, Option.toList]; blocks) ⟨_, _, _, _, rfl, rfl, by sizes⟩

theorem xxm_13 {us : List (PVal × MVal)} (sw : Bool) (hf : List.Forall₂ (fun X (w : PVal × MVal) => FitsImg X w.1 w.2) [42] us) :
    ∃ v, xxAction 13 (us.map Prod.fst) = .ok v ∧
      Gives (xxMem sw 13 (us.map Prod.snd)) (us.flatMap fun w => w.2.blocks) (fun m => FitsImg 46 v m) := by
  simp only [List.forall₂_cons_left_iff, List.forall₂_nil_left_iff] at hf
  obtain ⟨⟨v0, m0⟩, _, f0, rfl, rfl⟩ := hf
  obtain ⟨x0, b0, rfl, rfl⟩ : ∃ s b, v0 = PVal.strVal s ∧ m0 = MVal.one b := f0
  refine ⟨_, rfl, ?_⟩
  exact Does.malloc fun l => Does.malloc fun a => Gives.pure (by simp only [List.flatMap_cons, List.flatMap_nil, MVal.blocks, ListImg.blocks, Img.blocks]; blocks) ⟨_, _, _, _, rfl, rfl, by sizes⟩

theorem xxm_14 {us : List (PVal × MVal)} (sw : Bool) (hf : List.Forall₂ (fun X (w : PVal × MVal) => FitsImg X w.1 w.2) [46, 12, 42] us) :
    ∃ v, xxAction 14 (us.map Prod.fst) = .ok v ∧
      Gives (xxMem sw 14 (us.map Prod.snd)) (us.flatMap fun w => w.2.blocks) (fun m => FitsImg 46 v m) := by
  simp only [List.forall₂_cons_left_iff, List.forall₂_nil_left_iff] at hf
  obtain ⟨⟨v0, m0⟩, _, f0, ⟨⟨v1, m1⟩, _, f1, ⟨⟨v2, m2⟩, _, f2, rfl, rfl⟩, rfl⟩, rfl⟩ := hf
  obtain ⟨c0, l0, a0, s0, rfl, rfl, n0⟩ : ∃ c l a ss, v0 = PVal.strs c ∧ m0 = MVal.lst (.strs l a ss) ∧ ss.length = c.length := f0
  obtain ⟨rfl, rfl⟩ : v1 = PVal.token ∧ m1 = MVal.plain := f1
  obtain ⟨x2, b2, rfl, rfl⟩ : ∃ s b, v2 = PVal.strVal s ∧ m2 = MVal.one b := f2
  refine ⟨_, rfl, ?_⟩
  exact Does.realloc (L' := l0 :: (s0 ++ [b2])) (by simp only [List.flatMap_cons, List.flatMap_nil, MVal.blocks, ListImg.blocks, Img.blocks]; blocks) fun a => Gives.pure (by simp only [List.flatMap_cons, List.flatMap_nil, MVal.blocks, ListImg.blocks, Img.blocks]; blocks) ⟨_, _, _, _, rfl, rfl, by sizes⟩

theorem xxm_15 {us : List (PVal × MVal)} (sw : Bool) (hf : List.Forall₂ (fun X (w : PVal × MVal) => FitsImg X w.1 w.2) [10, 47, 11] us) :
    ∃ v, xxAction 15 (us.map Prod.fst) = .ok v ∧
      Gives (xxMem sw 15 (us.map Prod.snd)) (us.flatMap fun w => w.2.blocks) (fun m => FitsImg 47 v m) := by
  simp only [List.forall₂_cons_left_iff, List.forall₂_nil_left_iff] at hf
  obtain ⟨⟨v0, m0⟩, _, f0, ⟨⟨v1, m1⟩, _, f1, ⟨⟨v2, m2⟩, _, f2, rfl, rfl⟩, rfl⟩, rfl⟩ := hf
  obtain ⟨rfl, rfl⟩ : v0 = PVal.token ∧ m0 = MVal.plain := f0
  obtain ⟨e1, i1, rfl, rfl, n1⟩ : ∃ e i, v1 = PVal.node e ∧ m1 = MVal.node i ∧ i.blocks.length = exprBlocks e := f1
  obtain ⟨rfl, rfl⟩ : v2 = PVal.token ∧ m2 = MVal.plain := f2
  refine ⟨_, rfl, ?_⟩
  exact Gives.pure (by simp only [List.flatMap_cons, List.flatMap_nil, MVal.blocks, ListImg.blocks, Option.toList]; blocks) ⟨_, _, rfl, rfl, by sizes⟩

theorem xxm_16 {us : List (PVal × MVal)} (sw : Bool) (hf : List.Forall₂ (fun X (w : PVal × MVal) => FitsImg X w.1 w.2) [50] us) :
    ∃ v, xxAction 16 (us.map Prod.fst) = .ok v ∧
      Gives (xxMem sw 16 (us.map Prod.snd)) (us.flatMap fun w => w.2.blocks) (fun m => FitsImg 47 v m) := by
  simp only [List.forall₂_cons_left_iff, List.forall₂_nil_left_iff] at hf
  obtain ⟨⟨v0, m0⟩, _, f0, rfl, rfl⟩ := hf
  obtain ⟨e0, i0, rfl, rfl, n0⟩ : ∃ e i, v0 = PVal.node e ∧ m0 = MVal.node i ∧ i.blocks.length = exprBlocks e := f0
  refine ⟨_, rfl, ?_⟩
  exact Gives.pure (by simp only [List.flatMap_cons, List.flatMap_nil, MVal.blocks, ListImg.blocks, Option.toList]; blocks) ⟨_, _, rfl, rfl, by sizes⟩

theorem xxm_17 {us : List (PVal × MVal)} (sw : Bool) (hf : List.Forall₂ (fun X (w : PVal × MVal) => FitsImg X w.1 w.2) [52] us) :
    ∃ v, xxAction 17 (us.map Prod.fst) = .ok v ∧
      Gives (xxMem sw 17 (us.map Prod.snd)) (us.flatMap fun w => w.2.blocks) (fun m => FitsImg 47 v m) := by
  simp only [List.forall₂_cons_left_iff, List.forall₂_nil_left_iff] at hf
  obtain ⟨⟨v0, m0⟩, _, f0, rfl, rfl⟩ := hf
  obtain ⟨e0, i0, rfl, rfl, n0⟩ : ∃ e i, v0 = PVal.node e ∧ m0 = MVal.node i ∧ i.blocks.length = exprBlocks e := f0
  refine ⟨_, rfl, ?_⟩
  exact Gives.pure (by simp only [List.flatMap_cons, List.flatMap_nil, MVal.blocks, ListImg.blocks, Option.toList]; blocks) ⟨_, _, rfl, rfl, by sizes⟩

theorem xxm_18 {us : List (PVal × MVal)} (sw : Bool) (hf : List.Forall₂ (fun X (w : PVal × MVal) => FitsImg X w.1 w.2) [56] us) :
    ∃ v, xxAction 18 (us.map Prod.fst) = .ok v ∧
      Gives (xxMem sw 18 (us.map Prod.snd)) (us.flatMap fun w => w.2.blocks) (fun m => FitsImg 47 v m) := by
  simp only [List.forall₂_cons_left_iff, List.forall₂_nil_left_iff] at hf
  obtain ⟨⟨v0, m0⟩, _, f0, rfl, rfl⟩ := hf
  obtain ⟨e0, i0, rfl, rfl, n0⟩ : ∃ e i, v0 = PVal.node e ∧ m0 = MVal.node i ∧ i.blocks.length = exprBlocks e := f0
  refine ⟨_, rfl, ?_⟩
  exact Gives.pure (by simp only [List.flatMap_cons, List.flatMap_nil, MVal.blocks, ListImg.blocks, Option.toList]; blocks) ⟨_, _, rfl, rfl, by sizes⟩

theorem xxm_19 {us : List (PVal × MVal)} (sw : Bool) (hf : List.Forall₂ (fun X (w : PVal × MVal) => FitsImg X w.1 w.2) [58] us) :
    ∃ v, xxAction 19 (us.map Prod.fst) = .ok v ∧
      Gives (xxMem sw 19 (us.map Prod.snd)) (us.flatMap fun w => w.2.blocks) (fun m => FitsImg 47 v m) := by
  simp only [List.forall₂_cons_left_iff, List.forall₂_nil_left_iff] at hf
  obtain ⟨⟨v0, m0⟩, _, f0, rfl, rfl⟩ := hf
  obtain ⟨e0, i0, rfl, rfl, n0⟩ : ∃ e i, v0 = PVal.node e ∧ m0 = MVal.node i ∧ i.blocks.length = exprBlocks e := f0
  refine ⟨_, rfl, ?_⟩
  exact Gives.pure (by simp only [List.flatMap_cons, List.flatMap_nil, MVal.blocks, ListImg.blocks, Option.toList]; blocks) ⟨_, _, rfl, rfl, by sizes⟩

theorem xxm_20 {us : List (PVal × MVal)} (sw : Bool) (hf : List.Forall₂ (fun X (w : PVal × MVal) => FitsImg X w.1 w.2) [59] us) :
    ∃ v, xxAction 20 (us.map Prod.fst) = .ok v ∧
      Gives (xxMem sw 20 (us.map Prod.snd)) (us.flatMap fun w => w.2.blocks) (fun m => FitsImg 47 v m) := by
  simp only [List.forall₂_cons_left_iff, List.forall₂_nil_left_iff] at hf
  obtain ⟨⟨v0, m0⟩, _, f0, rfl, rfl⟩ := hf
  obtain ⟨e0, i0, rfl, rfl, n0⟩ : ∃ e i, v0 = PVal.node e ∧ m0 = MVal.node i ∧ i.blocks.length = exprBlocks e := f0
  refine ⟨_, rfl, ?_⟩
  exact Gives.pure (by simp only [List.flatMap_cons, List.flatMap_nil, MVal.blocks, ListImg.blocks, Option.toList]; blocks) ⟨_, _, rfl, rfl, by sizes⟩

theorem xxm_21 {us : List (PVal × MVal)} (sw : Bool) (hf : List.Forall₂ (fun X (w : PVal × MVal) => FitsImg X w.1 w.2) [60] us) :
    ∃ v, xxAction 21 (us.map Prod.fst) = .ok v ∧
      Gives (xxMem sw 21 (us.map Prod.snd)) (us.flatMap fun w => w.2.blocks) (fun m => FitsImg 47 v m) := by
  simp only [List.forall₂_cons_left_iff, List.forall₂_nil_left_iff] at hf
  obtain ⟨⟨v0, m0⟩, _, f0, rfl, rfl⟩ := hf
  obtain ⟨e0, i0, rfl, rfl, n0⟩ : ∃ e i, v0 = PVal.node e ∧ m0 = MVal.node i ∧ i.blocks.length = exprBlocks e := f0
  refine ⟨_, rfl, ?_⟩
  exact Gives.pure (by simp only [List.flatMap_cons, List.flatMap_nil, MVal.blocks, ListImg.blocks, Option.toList]; blocks) ⟨_, _, rfl, rfl, by sizes⟩

theorem xxm_22 {us : List (PVal × MVal)} (sw : Bool) (hf : List.Forall₂ (fun X (w : PVal × MVal) => FitsImg X w.1 w.2) [48] us) :
    ∃ v, xxAction 22 (us.map Prod.fst) = .ok v ∧
      Gives (xxMem sw 22 (us.map Prod.snd)) (us.flatMap fun w => w.2.blocks) (fun m => FitsImg 47 v m) := by
  simp only [List.forall₂_cons_left_iff, List.forall₂_nil_left_iff] at hf
  obtain ⟨⟨v0, m0⟩, _, f0, rfl, rfl⟩ := hf
  obtain ⟨e0, i0, rfl, rfl, n0⟩ : ∃ e i, v0 = PVal.node e ∧ m0 = MVal.node i ∧ i.blocks.length = exprBlocks e := f0
  refine ⟨_, rfl, ?_⟩
  exact Gives.pure (by simp only [List.flatMap_cons, List.flatMap_nil, MVal.blocks, ListImg.blocks, Option.toList]; blocks) ⟨_, _, rfl, rfl, by sizes⟩

theorem xxm_23 {us : List (PVal × MVal)} (sw : Bool) (hf : List.Forall₂ (fun X (w : PVal × MVal) => FitsImg X w.1 w.2) [39, 29] us) :
    ∃ v, xxAction 23 (us.map Prod.fst) = .ok v ∧
      Gives (xxMem sw 23 (us.map Prod.snd)) (us.flatMap fun w => w.2.blocks) (fun m => FitsImg 48 v m) := by
  simp only [List.forall₂_cons_left_iff, List.forall₂_nil_left_iff] at hf
  obtain ⟨⟨v0, m0⟩, _, f0, ⟨⟨v1, m1⟩, _, f1, rfl, rfl⟩, rfl⟩ := hf
  obtain ⟨x0, b0, rfl, rfl⟩ : ∃ s b, v0 = PVal.string s ∧ m0 = MVal.one b := f0
  obtain ⟨rfl, rfl⟩ : v1 = PVal.token ∧ m1 = MVal.plain := f1
  refine ⟨_, rfl, ?_⟩
  refine Gives.perm (memNamed_does b0 .isNull [] (fun _ => rfl)) (by simp only [List.flatMap_cons, List.flatMap_nil, MVal.blocks, ListImg.blocks, Option.toList]; blocks) ?_
  rintro m ⟨n, a, rfl⟩
  exact ⟨_, _, rfl, rfl, by sizes⟩

theorem xxm_24 {us : List (PVal × MVal)} (sw : Bool) (hf : List.Forall₂ (fun X (w : PVal × MVal) => FitsImg X w.1 w.2) [39, 28] us) :
    ∃ v, xxAction 24 (us.map Prod.fst) = .ok v ∧
      Gives (xxMem sw 24 (us.map Prod.snd)) (us.flatMap fun w => w.2.blocks) (fun m => FitsImg 48 v m) := by
  simp only [List.forall₂_cons_left_iff, List.forall₂_nil_left_iff] at hf
  obtain ⟨⟨v0, m0⟩, _, f0, ⟨⟨v1, m1⟩, _, f1, rfl, rfl⟩, rfl⟩ := hf
  obtain ⟨x0, b0, rfl, rfl⟩ : ∃ s b, v0 = PVal.string s ∧ m0 = MVal.one b := f0
  obtain ⟨rfl, rfl⟩ : v1 = PVal.token ∧ m1 = MVal.plain := f1
  refine ⟨_, rfl, ?_⟩
  refine Gives.perm (memNamed_does b0 .isNull [] (fun _ => rfl)) (by simp only [List.flatMap_cons, List.flatMap_nil, MVal.blocks, ListImg.blocks, Option.toList]; blocks) ?_
  rintro m ⟨n, a, rfl⟩
  exact ⟨_, _, rfl, rfl, by sizes⟩

theorem xxm_25 {us : List (PVal × MVal)} (sw : Bool) (hf : List.Forall₂ (fun X (w : PVal × MVal) => FitsImg X w.1 w.2) [39, 30] us) :
    ∃ v, xxAction 25 (us.map Prod.fst) = .ok v ∧
      Gives (xxMem sw 25 (us.map Prod.snd)) (us.flatMap fun w => w.2.blocks) (fun m => FitsImg 48 v m) := by
  simp only [List.forall₂_cons_left_iff, List.forall₂_nil_left_iff] at hf
  obtain ⟨⟨v0, m0⟩, _, f0, ⟨⟨v1, m1⟩, _, f1, rfl, rfl⟩, rfl⟩ := hf
  obtain ⟨x0, b0, rfl, rfl⟩ : ∃ s b, v0 = PVal.string s ∧ m0 = MVal.one b := f0
  obtain ⟨rfl, rfl⟩ : v1 = PVal.token ∧ m1 = MVal.plain := f1
  refine ⟨_, rfl, ?_⟩
  refine Gives.perm (memNamed_does b0 .isNull [] (fun _ => rfl)) (by simp only [List.flatMap_cons, List.flatMap_nil, MVal.blocks, ListImg.blocks, Option.toList]; blocks) ?_
  rintro m ⟨n, a, rfl⟩
  exact ⟨_, _, rfl, rfl, by sizes⟩

theorem xxm_26 {us : List (PVal × MVal)} (sw : Bool) (hf : List.Forall₂ (fun X (w : PVal × MVal) => FitsImg X w.1 w.2) [40] us) :
    ∃ v, xxAction 26 (us.map Prod.fst) = .ok v ∧
      Gives (xxMem sw 26 (us.map Prod.snd)) (us.flatMap fun w => w.2.blocks) (fun m => FitsImg 49 v m) := by
  simp only [List.forall₂_cons_left_iff, List.forall₂_nil_left_iff] at hf
  obtain ⟨⟨v0, m0⟩, _, f0, rfl, rfl⟩ := hf
  obtain ⟨⟨x0, rfl⟩, rfl⟩ : (∃ n, v0 = PVal.int n) ∧ m0 = MVal.plain := f0
  refine ⟨_, rfl, ?_⟩
  exact Gives.pure (by simp only [List.flatMap_cons, List.flatMap_nil, MVal.blocks, ListImg.blocks, Option.toList]; blocks) ⟨⟨_, rfl⟩, rfl⟩

theorem xxm_27 {us : List (PVal × MVal)} (sw : Bool) (hf : List.Forall₂ (fun X (w : PVal × MVal) => FitsImg X w.1 w.2) [41] us) :
    ∃ v, xxAction 27 (us.map Prod.fst) = .ok v ∧
      Gives (xxMem sw 27 (us.map Prod.snd)) (us.flatMap fun w => w.2.blocks) (fun m => FitsImg 49 v m) := by
  simp only [List.forall₂_cons_left_iff, List.forall₂_nil_left_iff] at hf
  obtain ⟨⟨v0, m0⟩, _, f0, rfl, rfl⟩ := hf
  obtain ⟨⟨x0, rfl⟩, rfl⟩ : (∃ n, v0 = PVal.float n) ∧ m0 = MVal.plain := f0
  refine ⟨_, rfl, ?_⟩
  exact Gives.pure (by simp only [List.flatMap_cons, List.flatMap_nil, MVal.blocks, ListImg.blocks, Option.toList]; blocks) ⟨⟨_, rfl⟩, rfl⟩

theorem xxm_28 {us : List (PVal × MVal)} (sw : Bool) (hf : List.Forall₂ (fun X (w : PVal × MVal) => FitsImg X w.1 w.2) [39, 6, 49] us) :
    ∃ v, xxAction 28 (us.map Prod.fst) = .ok v ∧
      Gives (xxMem sw 28 (us.map Prod.snd)) (us.flatMap fun w => w.2.blocks) (fun m => FitsImg 50 v m) := by
  simp only [List.forall₂_cons_left_iff, List.forall₂_nil_left_iff] at hf
  obtain ⟨⟨v0, m0⟩, _, f0, ⟨⟨v1, m1⟩, _, f1, ⟨⟨v2, m2⟩, _, f2, rfl, rfl⟩, rfl⟩, rfl⟩ := hf
  obtain ⟨x0, b0, rfl, rfl⟩ : ∃ s b, v0 = PVal.string s ∧ m0 = MVal.one b := f0
  obtain ⟨rfl, rfl⟩ : v1 = PVal.token ∧ m1 = MVal.plain := f1
  obtain ⟨⟨x2, rfl⟩, rfl⟩ : (∃ n, v2 = PVal.cmp n) ∧ m2 = MVal.plain := f2
  refine ⟨_, rfl, ?_⟩
  refine Gives.perm (memNamed_does b0 .compare [] (fun _ => rfl)) (by simp only [List.flatMap_cons, List.flatMap_nil, MVal.blocks, ListImg.blocks, Option.toList]; blocks) ?_
  rintro m ⟨n, a, rfl⟩
  exact ⟨_, _, rfl, rfl, by sizes⟩

theorem xxm_29 {us : List (PVal × MVal)} (sw : Bool) (hf : List.Forall₂ (fun X (w : PVal × MVal) => FitsImg X w.1 w.2) [39, 7, 49] us) :
    ∃ v, xxAction 29 (us.map Prod.fst) = .ok v ∧
      Gives (xxMem sw 29 (us.map Prod.snd)) (us.flatMap fun w => w.2.blocks) (fun m => FitsImg 50 v m) := by
  simp only [List.forall₂_cons_left_iff, List.forall₂_nil_left_iff] at hf
  obtain ⟨⟨v0, m0⟩, _, f0, ⟨⟨v1, m1⟩, _, f1, ⟨⟨v2, m2⟩, _, f2, rfl, rfl⟩, rfl⟩, rfl⟩ := hf
  obtain ⟨x0, b0, rfl, rfl⟩ : ∃ s b, v0 = PVal.string s ∧ m0 = MVal.one b := f0
  obtain ⟨rfl, rfl⟩ : v1 = PVal.token ∧ m1 = MVal.plain := f1
  obtain ⟨⟨x2, rfl⟩, rfl⟩ : (∃ n, v2 = PVal.cmp n) ∧ m2 = MVal.plain := f2
  refine ⟨_, rfl, ?_⟩
  refine Gives.perm (memNamed_does b0 .compare [] (fun _ => rfl)) (by simp only [List.flatMap_cons, List.flatMap_nil, MVal.blocks, ListImg.blocks, Option.toList]; blocks) ?_
  rintro m ⟨n, a, rfl⟩
  exact ⟨_, _, rfl, rfl, by sizes⟩

theorem xxm_30 {us : List (PVal × MVal)} (sw : Bool) (hf : List.Forall₂ (fun X (w : PVal × MVal) => FitsImg X w.1 w.2) [39, 8, 49] us) :
    ∃ v, xxAction 30 (us.map Prod.fst) = .ok v ∧
      Gives (xxMem sw 30 (us.map Prod.snd)) (us.flatMap fun w => w.2.blocks) (fun m => FitsImg 50 v m) := by
  simp only [List.forall₂_cons_left_iff, List.forall₂_nil_left_iff] at hf
  obtain ⟨⟨v0, m0⟩, _, f0, ⟨⟨v1, m1⟩, _, f1, ⟨⟨v2, m2⟩, _, f2, rfl, rfl⟩, rfl⟩, rfl⟩ := hf
  obtain ⟨x0, b0, rfl, rfl⟩ : ∃ s b, v0 = PVal.string s ∧ m0 = MVal.one b := f0
  obtain ⟨rfl, rfl⟩ : v1 = PVal.token ∧ m1 = MVal.plain := f1
  obtain ⟨⟨x2, rfl⟩, rfl⟩ : (∃ n, v2 = PVal.cmp n) ∧ m2 = MVal.plain := f2
  refine ⟨_, rfl, ?_⟩
  refine Gives.perm (memNamed_does b0 .compare [] (fun _ => rfl)) (by simp only [List.flatMap_cons, List.flatMap_nil, MVal.blocks, ListImg.blocks, Option.toList]; blocks) ?_
  rintro m ⟨n, a, rfl⟩
  exact ⟨_, _, rfl, rfl, by sizes⟩

theorem xxm_31 {us : List (PVal × MVal)} (sw : Bool) (hf : List.Forall₂ (fun X (w : PVal × MVal) => FitsImg X w.1 w.2) [39, 9, 49] us) :
    ∃ v, xxAction 31 (us.map Prod.fst) = .ok v ∧
      Gives (xxMem sw 31 (us.map Prod.snd)) (us.flatMap fun w => w.2.blocks) (fun m => FitsImg 50 v m) := by
  simp only [List.forall₂_cons_left_iff, List.forall₂_nil_left_iff] at hf
  obtain ⟨⟨v0, m0⟩, _, f0, ⟨⟨v1, m1⟩, _, f1, ⟨⟨v2, m2⟩, _, f2, rfl, rfl⟩, rfl⟩, rfl⟩ := hf
  obtain ⟨x0, b0, rfl, rfl⟩ : ∃ s b, v0 = PVal.string s ∧ m0 = MVal.one b := f0
  obtain ⟨rfl, rfl⟩ : v1 = PVal.token ∧ m1 = MVal.plain := f1
  obtain ⟨⟨x2, rfl⟩, rfl⟩ : (∃ n, v2 = PVal.cmp n) ∧ m2 = MVal.plain := f2
  refine ⟨_, rfl, ?_⟩
  refine Gives.perm (memNamed_does b0 .compare [] (fun _ => rfl)) (by simp only [List.flatMap_cons, List.flatMap_nil, MVal.blocks, ListImg.blocks, Option.toList]; blocks) ?_
  rintro m ⟨n, a, rfl⟩
  exact ⟨_, _, rfl, rfl, by sizes⟩

theorem xxm_32 {us : List (PVal × MVal)} (sw : Bool) (hf : List.Forall₂ (fun X (w : PVal × MVal) => FitsImg X w.1 w.2) [49, 8, 39] us) :
    ∃ v, xxAction 32 (us.map Prod.fst) = .ok v ∧
      Gives (xxMem sw 32 (us.map Prod.snd)) (us.flatMap fun w => w.2.blocks) (fun m => FitsImg 50 v m) := by
  simp only [List.forall₂_cons_left_iff, List.forall₂_nil_left_iff] at hf
  obtain ⟨⟨v0, m0⟩, _, f0, ⟨⟨v1, m1⟩, _, f1, ⟨⟨v2, m2⟩, _, f2, rfl, rfl⟩, rfl⟩, rfl⟩ := hf
  obtain ⟨⟨x0, rfl⟩, rfl⟩ : (∃ n, v0 = PVal.cmp n) ∧ m0 = MVal.plain := f0
  obtain ⟨rfl, rfl⟩ : v1 = PVal.token ∧ m1 = MVal.plain := f1
  obtain ⟨x2, b2, rfl, rfl⟩ : ∃ s b, v2 = PVal.string s ∧ m2 = MVal.one b := f2
  refine ⟨_, rfl, ?_⟩
  refine Gives.perm (memNamed_does b2 .compare [] (fun _ => rfl)) (by simp only [List.flatMap_cons, List.flatMap_nil, MVal.blocks, ListImg.blocks, Option.toList]; blocks) ?_
  rintro m ⟨n, a, rfl⟩
  exact ⟨_, _, rfl, rfl, by sizes⟩

theorem xxm_33 {us : List (PVal × MVal)} (sw : Bool) (hf : List.Forall₂ (fun X (w : PVal × MVal) => FitsImg X w.1 w.2) [49, 9, 39] us) :
    ∃ v, xxAction 33 (us.map Prod.fst) = .ok v ∧
      Gives (xxMem sw 33 (us.map Prod.snd)) (us.flatMap fun w => w.2.blocks) (fun m => FitsImg 50 v m) := by
  simp only [List.forall₂_cons_left_iff, List.forall₂_nil_left_iff] at hf
  obtain ⟨⟨v0, m0⟩, _, f0, ⟨⟨v1, m1⟩, _, f1, ⟨⟨v2, m2⟩, _, f2, rfl, rfl⟩, rfl⟩, rfl⟩ := hf
  obtain ⟨⟨x0, rfl⟩, rfl⟩ : (∃ n, v0 = PVal.cmp n) ∧ m0 = MVal.plain := f0
  obtain ⟨rfl, rfl⟩ : v1 = PVal.token ∧ m1 = MVal.plain := f1
  obtain ⟨x2, b2, rfl, rfl⟩ : ∃ s b, v2 = PVal.string s ∧ m2 = MVal.one b := f2
  refine ⟨_, rfl, ?_⟩
  refine Gives.perm (memNamed_does b2 .compare [] (fun _ => rfl)) (by simp only [List.flatMap_cons, List.flatMap_nil, MVal.blocks, ListImg.blocks, Option.toList]; blocks) ?_
  rintro m ⟨n, a, rfl⟩
  exact ⟨_, _, rfl, rfl, by sizes⟩

theorem xxm_34 {us : List (PVal × MVal)} (sw : Bool) (hf : List.Forall₂ (fun X (w : PVal × MVal) => FitsImg X w.1 w.2) [49, 6, 39] us) :
    ∃ v, xxAction 34 (us.map Prod.fst) = .ok v ∧
      Gives (xxMem sw 34 (us.map Prod.snd)) (us.flatMap fun w => w.2.blocks) (fun m => FitsImg 50 v m) := by
  simp only [List.forall₂_cons_left_iff, List.forall₂_nil_left_iff] at hf
  obtain ⟨⟨v0, m0⟩, _, f0, ⟨⟨v1, m1⟩, _, f1, ⟨⟨v2, m2⟩, _, f2, rfl, rfl⟩, rfl⟩, rfl⟩ := hf
  obtain ⟨⟨x0, rfl⟩, rfl⟩ : (∃ n, v0 = PVal.cmp n) ∧ m0 = MVal.plain := f0
  obtain ⟨rfl, rfl⟩ : v1 = PVal.token ∧ m1 = MVal.plain := f1
  obtain ⟨x2, b2, rfl, rfl⟩ : ∃ s b, v2 = PVal.string s ∧ m2 = MVal.one b := f2
  refine ⟨_, rfl, ?_⟩
  refine Gives.perm (memNamed_does b2 .compare [] (fun _ => rfl)) (by simp only [List.flatMap_cons, List.flatMap_nil, MVal.blocks, ListImg.blocks, Option.toList]; blocks) ?_
  rintro m ⟨n, a, rfl⟩
  exact ⟨_, _, rfl, rfl, by sizes⟩

theorem xxm_35 {us : List (PVal × MVal)} (sw : Bool) (hf : List.Forall₂ (fun X (w : PVal × MVal) => FitsImg X w.1 w.2) [49, 7, 39] us) :
    ∃ v, xxAction 35 (us.map Prod.fst) = .ok v ∧
      Gives (xxMem sw 35 (us.map Prod.snd)) (us.flatMap fun w => w.2.blocks) (fun m => FitsImg 50 v m) := by
  simp only [List.forall₂_cons_left_iff, List.forall₂_nil_left_iff] at hf
  obtain ⟨⟨v0, m0⟩, _, f0, ⟨⟨v1, m1⟩, _, f1, ⟨⟨v2, m2⟩, _, f2, rfl, rfl⟩, rfl⟩, rfl⟩ := hf
  obtain ⟨⟨x0, rfl⟩, rfl⟩ : (∃ n, v0 = PVal.cmp n) ∧ m0 = MVal.plain := f0
  obtain ⟨rfl, rfl⟩ : v1 = PVal.token ∧ m1 = MVal.plain := f1
  obtain ⟨x2, b2, rfl, rfl⟩ : ∃ s b, v2 = PVal.string s ∧ m2 = MVal.one b := f2
  refine ⟨_, rfl, ?_⟩
  refine Gives.perm (memNamed_does b2 .compare [] (fun _ => rfl)) (by simp only [List.flatMap_cons, List.flatMap_nil, MVal.blocks, ListImg.blocks, Option.toList]; blocks) ?_
  rintro m ⟨n, a, rfl⟩
  exact ⟨_, _, rfl, rfl, by sizes⟩

theorem xxm_36 {us : List (PVal × MVal)} (sw : Bool) (hf : List.Forall₂ (fun X (w : PVal × MVal) => FitsImg X w.1 w.2) [40] us) :
    ∃ v, xxAction 36 (us.map Prod.fst) = .ok v ∧
      Gives (xxMem sw 36 (us.map Prod.snd)) (us.flatMap fun w => w.2.blocks) (fun m => FitsImg 51 v m) := by
  simp only [List.forall₂_cons_left_iff, List.forall₂_nil_left_iff] at hf
  obtain ⟨⟨v0, m0⟩, _, f0, rfl, rfl⟩ := hf
  obtain ⟨⟨x0, rfl⟩, rfl⟩ : (∃ n, v0 = PVal.int n) ∧ m0 = MVal.plain := f0
  refine ⟨_, rfl, ?_⟩
  exact Gives.pure (by simp only [List.flatMap_cons, List.flatMap_nil, MVal.blocks, ListImg.blocks, Option.toList]; blocks) ⟨_, _, rfl, rfl, by sizes⟩

theorem xxm_37 {us : List (PVal × MVal)} (sw : Bool) (hf : List.Forall₂ (fun X (w : PVal × MVal) => FitsImg X w.1 w.2) [41] us) :
    ∃ v, xxAction 37 (us.map Prod.fst) = .ok v ∧
      Gives (xxMem sw 37 (us.map Prod.snd)) (us.flatMap fun w => w.2.blocks) (fun m => FitsImg 51 v m) := by
  simp only [List.forall₂_cons_left_iff, List.forall₂_nil_left_iff] at hf
  obtain ⟨⟨v0, m0⟩, _, f0, rfl, rfl⟩ := hf
  obtain ⟨⟨x0, rfl⟩, rfl⟩ : (∃ n, v0 = PVal.float n) ∧ m0 = MVal.plain := f0
  refine ⟨_, rfl, ?_⟩
  exact Gives.pure (by simp only [List.flatMap_cons, List.flatMap_nil, MVal.blocks, ListImg.blocks, Option.toList]; blocks) ⟨_, _, rfl, rfl, by sizes⟩

theorem xxm_38 {us : List (PVal × MVal)} (sw : Bool) (hf : List.Forall₂ (fun X (w : PVal × MVal) => FitsImg X w.1 w.2) [42] us) :
    ∃ v, xxAction 38 (us.map Prod.fst) = .ok v ∧
      Gives (xxMem sw 38 (us.map Prod.snd)) (us.flatMap fun w => w.2.blocks) (fun m => FitsImg 51 v m) := by
  simp only [List.forall₂_cons_left_iff, List.forall₂_nil_left_iff] at hf
  obtain ⟨⟨v0, m0⟩, _, f0, rfl, rfl⟩ := hf
  obtain ⟨x0, b0, rfl, rfl⟩ : ∃ s b, v0 = PVal.strVal s ∧ m0 = MVal.one b := f0
  refine ⟨_, rfl, ?_⟩
  exact Gives.pure (by simp only [List.flatMap_cons, List.flatMap_nil, MVal.blocks, ListImg.blocks, Option.toList]; blocks) ⟨_, _, rfl, rfl, by sizes⟩

theorem xxm_39 {us : List (PVal × MVal)} (sw : Bool) (hf : List.Forall₂ (fun X (w : PVal × MVal) => FitsImg X w.1 w.2) [39, 4, 51] us) :
    ∃ v, xxAction 39 (us.map Prod.fst) = .ok v ∧
      Gives (xxMem sw 39 (us.map Prod.snd)) (us.flatMap fun w => w.2.blocks) (fun m => FitsImg 52 v m) := by
  simp only [List.forall₂_cons_left_iff, List.forall₂_nil_left_iff] at hf
  obtain ⟨⟨v0, m0⟩, _, f0, ⟨⟨v1, m1⟩, _, f1, ⟨⟨v2, m2⟩, _, f2, rfl, rfl⟩, rfl⟩, rfl⟩ := hf
  obtain ⟨x0, b0, rfl, rfl⟩ : ∃ s b, v0 = PVal.string s ∧ m0 = MVal.one b := f0
  obtain ⟨rfl, rfl⟩ : v1 = PVal.token ∧ m1 = MVal.plain := f1
  obtain ⟨c2, o2, rfl, rfl, n2⟩ : ∃ c o, v2 = PVal.eq c ∧ m2 = MVal.opt o ∧ o.toList.length = eqBlocks c := f2
  refine ⟨_, rfl, ?_⟩
  refine Gives.perm (memNamed_does b0 (fun a => .equality a o2) o2.toList (fun _ => rfl)) (by simp only [List.flatMap_cons, List.flatMap_nil, MVal.blocks, ListImg.blocks, Option.toList]; blocks) ?_
  rintro m ⟨n, a, rfl⟩
  exact ⟨_, _, rfl, rfl, by sizes⟩

theorem xxm_40 {us : List (PVal × MVal)} (sw : Bool) (hf : List.Forall₂ (fun X (w : PVal × MVal) => FitsImg X w.1 w.2) [39, 5, 51] us) :
    ∃ v, xxAction 40 (us.map Prod.fst) = .ok v ∧
      Gives (xxMem sw 40 (us.map Prod.snd)) (us.flatMap fun w => w.2.blocks) (fun m => FitsImg 52 v m) := by
  simp only [List.forall₂_cons_left_iff, List.forall₂_nil_left_iff] at hf
  obtain ⟨⟨v0, m0⟩, _, f0, ⟨⟨v1, m1⟩, _, f1, ⟨⟨v2, m2⟩, _, f2, rfl, rfl⟩, rfl⟩, rfl⟩ := hf
  obtain ⟨x0, b0, rfl, rfl⟩ : ∃ s b, v0 = PVal.string s ∧ m0 = MVal.one b := f0
  obtain ⟨rfl, rfl⟩ : v1 = PVal.token ∧ m1 = MVal.plain := f1
  obtain ⟨c2, o2, rfl, rfl, n2⟩ : ∃ c o, v2 = PVal.eq c ∧ m2 = MVal.opt o ∧ o.toList.length = eqBlocks c := f2
  refine ⟨_, rfl, ?_⟩
  refine Gives.perm (memNamed_does b0 (fun a => .equality a o2) o2.toList (fun _ => rfl)) (by simp only [List.flatMap_cons, List.flatMap_nil, MVal.blocks, ListImg.blocks, Option.toList]; blocks) ?_
  rintro m ⟨n, a, rfl⟩
  exact ⟨_, _, rfl, rfl, by sizes⟩

theorem xxm_41 {us : List (PVal × MVal)} (sw : Bool) (hf : List.Forall₂ (fun X (w : PVal × MVal) => FitsImg X w.1 w.2) [51, 4, 39] us) :
    ∃ v, xxAction 41 (us.map Prod.fst) = .ok v ∧
      Gives (xxMem sw 41 (us.map Prod.snd)) (us.flatMap fun w => w.2.blocks) (fun m => FitsImg 52 v m) := by
  simp only [List.forall₂_cons_left_iff, List.forall₂_nil_left_iff] at hf
  obtain ⟨⟨v0, m0⟩, _, f0, ⟨⟨v1, m1⟩, _, f1, ⟨⟨v2, m2⟩, _, f2, rfl, rfl⟩, rfl⟩, rfl⟩ := hf
  obtain ⟨c0, o0, rfl, rfl, n0⟩ : ∃ c o, v0 = PVal.eq c ∧ m0 = MVal.opt o ∧ o.toList.length = eqBlocks c := f0
  obtain ⟨rfl, rfl⟩ : v1 = PVal.token ∧ m1 = MVal.plain := f1
  obtain ⟨x2, b2, rfl, rfl⟩ : ∃ s b, v2 = PVal.string s ∧ m2 = MVal.one b := f2
  refine ⟨_, rfl, ?_⟩
  refine Gives.perm (memNamed_does b2 (fun a => .equality a o0) o0.toList (fun _ => rfl)) (by simp only [List.flatMap_cons, List.flatMap_nil, MVal.blocks, ListImg.blocks, Option.toList]; blocks) ?_
  rintro m ⟨n, a, rfl⟩
  exact ⟨_, _, rfl, rfl, by sizes⟩

theorem xxm_42 {us : List (PVal × MVal)} (sw : Bool) (hf : List.Forall₂ (fun X (w : PVal × MVal) => FitsImg X w.1 w.2) [51, 5, 39] us) :
    ∃ v, xxAction 42 (us.map Prod.fst) = .ok v ∧
      Gives (xxMem sw 42 (us.map Prod.snd)) (us.flatMap fun w => w.2.blocks) (fun m => FitsImg 52 v m) := by
  simp only [List.forall₂_cons_left_iff, List.forall₂_nil_left_iff] at hf
  obtain ⟨⟨v0, m0⟩, _, f0, ⟨⟨v1, m1⟩, _, f1, ⟨⟨v2, m2⟩, _, f2, rfl, rfl⟩, rfl⟩, rfl⟩ := hf
  obtain ⟨c0, o0, rfl, rfl, n0⟩ : ∃ c o, v0 = PVal.eq c ∧ m0 = MVal.opt o ∧ o.toList.length = eqBlocks c := f0
  obtain ⟨rfl, rfl⟩ : v1 = PVal.token ∧ m1 = MVal.plain := f1
  obtain ⟨x2, b2, rfl, rfl⟩ : ∃ s b, v2 = PVal.string s ∧ m2 = MVal.one b := f2
  refine ⟨_, rfl, ?_⟩
  refine Gives.perm (memNamed_does b2 (fun a => .equality a o0) o0.toList (fun _ => rfl)) (by simp only [List.flatMap_cons, List.flatMap_nil, MVal.blocks, ListImg.blocks, Option.toList]; blocks) ?_
  rintro m ⟨n, a, rfl⟩
  exact ⟨_, _, rfl, rfl, by sizes⟩

theorem xxm_43 {us : List (PVal × MVal)} (sw : Bool) (hf : List.Forall₂ (fun X (w : PVal × MVal) => FitsImg X w.1 w.2) [39] us) :
    ∃ v, xxAction 43 (us.map Prod.fst) = .ok v ∧
      Gives (xxMem sw 43 (us.map Prod.snd)) (us.flatMap fun w => w.2.blocks) (fun m => FitsImg 53 v m) := by
  simp only [List.forall₂_cons_left_iff, List.forall₂_nil_left_iff] at hf
  obtain ⟨⟨v0, m0⟩, _, f0, rfl, rfl⟩ := hf
  obtain ⟨x0, b0, rfl, rfl⟩ : ∃ s b, v0 = PVal.string s ∧ m0 = MVal.one b := f0
  refine ⟨_, rfl, ?_⟩
  refine Gives.perm (memCopy_does b0) (by simp only [List.flatMap_cons, List.flatMap_nil, MVal.blocks, ListImg.blocks, Option.toList]; blocks) ?_
  rintro m ⟨s, rfl⟩
  exact ⟨_, _, rfl, rfl⟩

theorem xxm_44 {us : List (PVal × MVal)} (sw : Bool) (hf : List.Forall₂ (fun X (w : PVal × MVal) => FitsImg X w.1 w.2) [40] us) :
    ∃ v, xxAction 44 (us.map Prod.fst) = .ok v ∧
      Gives (xxMem sw 44 (us.map Prod.snd)) (us.flatMap fun w => w.2.blocks) (fun m => FitsImg 54 v m) := by
  simp only [List.forall₂_cons_left_iff, List.forall₂_nil_left_iff] at hf
  obtain ⟨⟨v0, m0⟩, _, f0, rfl, rfl⟩ := hf
  obtain ⟨⟨x0, rfl⟩, rfl⟩ : (∃ n, v0 = PVal.int n) ∧ m0 = MVal.plain := f0
  refine ⟨_, rfl, ?_⟩
  exact Gives.pure (by simp only [List.flatMap_cons, List.flatMap_nil, MVal.blocks, ListImg.blocks, Option.toList]; blocks) ⟨_, _, rfl, rfl, by sizes⟩

theorem xxm_45 {us : List (PVal × MVal)} (sw : Bool) (hf : List.Forall₂ (fun X (w : PVal × MVal) => FitsImg X w.1 w.2) [42] us) :
    ∃ v, xxAction 45 (us.map Prod.fst) = .ok v ∧
      Gives (xxMem sw 45 (us.map Prod.snd)) (us.flatMap fun w => w.2.blocks) (fun m => FitsImg 54 v m) := by
  simp only [List.forall₂_cons_left_iff, List.forall₂_nil_left_iff] at hf
  obtain ⟨⟨v0, m0⟩, _, f0, rfl, rfl⟩ := hf
  obtain ⟨x0, b0, rfl, rfl⟩ : ∃ s b, v0 = PVal.strVal s ∧ m0 = MVal.one b := f0
  refine ⟨_, rfl, ?_⟩
  exact Gives.pure (by simp only [List.flatMap_cons, List.flatMap_nil, MVal.blocks, ListImg.blocks, Option.toList]; blocks) ⟨_, _, rfl, rfl, by sizes⟩

theorem xxm_46 {us : List (PVal × MVal)} (sw : Bool) (hf : List.Forall₂ (fun X (w : PVal × MVal) => FitsImg X w.1 w.2) [53] us) :
    ∃ v, xxAction 46 (us.map Prod.fst) = .ok v ∧
      Gives (xxMem sw 46 (us.map Prod.snd)) (us.flatMap fun w => w.2.blocks) (fun m => FitsImg 54 v m) := by
  simp only [List.forall₂_cons_left_iff, List.forall₂_nil_left_iff] at hf
  obtain ⟨⟨v0, m0⟩, _, f0, rfl, rfl⟩ := hf
  obtain ⟨x0, b0, rfl, rfl⟩ : ∃ s b, v0 = PVal.var s ∧ m0 = MVal.one b := f0
  refine ⟨_, rfl, ?_⟩
  exact Gives.pure (by simp only [List.flatMap_cons, List.flatMap_nil, MVal.blocks, ListImg.blocks, Option.toList]; blocks) ⟨_, _, rfl, rfl, by sizes⟩

theorem xxm_47 {us : List (PVal × MVal)} (sw : Bool) (hf : List.Forall₂ (fun X (w : PVal × MVal) => FitsImg X w.1 w.2) [43] us) :
    ∃ v, xxAction 47 (us.map Prod.fst) = .ok v ∧
      Gives (xxMem sw 47 (us.map Prod.snd)) (us.flatMap fun w => w.2.blocks) (fun m => FitsImg 55 v m) := by
  simp only [List.forall₂_cons_left_iff, List.forall₂_nil_left_iff] at hf
  obtain ⟨⟨v0, m0⟩, _, f0, rfl, rfl⟩ := hf
  obtain ⟨c0, l0, a0, rfl, rfl⟩ : ∃ c l a, v0 = PVal.ints c ∧ m0 = MVal.lst (.ints l a) := f0
  refine ⟨_, rfl, ?_⟩
  exact Gives.pure (by simp only [List.flatMap_cons, List.flatMap_nil, MVal.blocks, ListImg.blocks, Option.toList]; blocks) ⟨_, _, rfl, rfl, by sizes⟩

theorem xxm_48 {us : List (PVal × MVal)} (sw : Bool) (hf : List.Forall₂ (fun X (w : PVal × MVal) => FitsImg X w.1 w.2) [45] us) :
    ∃ v, xxAction 48 (us.map Prod.fst) = .ok v ∧
      Gives (xxMem sw 48 (us.map Prod.snd)) (us.flatMap fun w => w.2.blocks) (fun m => FitsImg 55 v m) := by
  simp only [List.forall₂_cons_left_iff, List.forall₂_nil_left_iff] at hf
  obtain ⟨⟨v0, m0⟩, _, f0, rfl, rfl⟩ := hf
  obtain ⟨c0, l0, a0, s0, rfl, rfl, n0⟩ : ∃ c l a ss, v0 = PVal.strs c ∧ m0 = MVal.lst (.strs l a ss) ∧ ss.length = c.length := f0
  refine ⟨_, rfl, ?_⟩
  exact Gives.pure (by simp only [List.flatMap_cons, List.flatMap_nil, MVal.blocks, ListImg.blocks, Option.toList]; blocks) ⟨_, _, rfl, rfl, by sizes⟩

theorem xxm_49 {us : List (PVal × MVal)} (sw : Bool) (hf : List.Forall₂ (fun X (w : PVal × MVal) => FitsImg X w.1 w.2) [53] us) :
    ∃ v, xxAction 49 (us.map Prod.fst) = .ok v ∧
      Gives (xxMem sw 49 (us.map Prod.snd)) (us.flatMap fun w => w.2.blocks) (fun m => FitsImg 55 v m) := by
  simp only [List.forall₂_cons_left_iff, List.forall₂_nil_left_iff] at hf
  obtain ⟨⟨v0, m0⟩, _, f0, rfl, rfl⟩ := hf
  obtain ⟨x0, b0, rfl, rfl⟩ : ∃ s b, v0 = PVal.var s ∧ m0 = MVal.one b := f0
  refine ⟨_, rfl, ?_⟩
  exact Gives.pure (by simp only [List.flatMap_cons, List.flatMap_nil, MVal.blocks, ListImg.blocks, Option.toList]; blocks) ⟨_, _, rfl, rfl, by sizes⟩

theorem xxm_50 {us : List (PVal × MVal)} (sw : Bool) (hf : List.Forall₂ (fun X (w : PVal × MVal) => FitsImg X w.1 w.2) [54, 13, 55] us) :
    ∃ v, xxAction 50 (us.map Prod.fst) = .ok v ∧
      Gives (xxMem sw 50 (us.map Prod.snd)) (us.flatMap fun w => w.2.blocks) (fun m => FitsImg 56 v m) := by
  simp only [List.forall₂_cons_left_iff, List.forall₂_nil_left_iff] at hf
  obtain ⟨⟨v0, m0⟩, _, f0, ⟨⟨v1, m1⟩, _, f1, ⟨⟨v2, m2⟩, _, f2, rfl, rfl⟩, rfl⟩, rfl⟩ := hf
  obtain ⟨c0, o0, rfl, rfl, n0⟩ : ∃ c o, v0 = PVal.setLeft c ∧ m0 = MVal.opt o ∧ o.toList.length = setLeftBlocks c := f0
  obtain ⟨rfl, rfl⟩ : v1 = PVal.token ∧ m1 = MVal.plain := f1
  obtain ⟨c2, l2, rfl, rfl, n2⟩ : ∃ c l, v2 = PVal.setRight c ∧ m2 = MVal.lst l ∧ l.blocks.length = setRightBlocks c := f2
  refine ⟨_, rfl, ?_⟩
  refine Gives.perm (memSet_does o0 l2) (by simp only [List.flatMap_cons, List.flatMap_nil, MVal.blocks, ListImg.blocks, Option.toList]; blocks) ?_
  rintro m ⟨n, rfl⟩
  exact ⟨_, _, rfl, rfl, by sizes⟩

theorem xxm_51 {us : List (PVal × MVal)} (sw : Bool) (hf : List.Forall₂ (fun X (w : PVal × MVal) => FitsImg X w.1 w.2) [54, 14, 55] us) :
    ∃ v, xxAction 51 (us.map Prod.fst) = .ok v ∧
      Gives (xxMem sw 51 (us.map Prod.snd)) (us.flatMap fun w => w.2.blocks) (fun m => FitsImg 56 v m) := by
  simp only [List.forall₂_cons_left_iff, List.forall₂_nil_left_iff] at hf
  obtain ⟨⟨v0, m0⟩, _, f0, ⟨⟨v1, m1⟩, _, f1, ⟨⟨v2, m2⟩, _, f2, rfl, rfl⟩, rfl⟩, rfl⟩ := hf
  obtain ⟨c0, o0, rfl, rfl, n0⟩ : ∃ c o, v0 = PVal.setLeft c ∧ m0 = MVal.opt o ∧ o.toList.length = setLeftBlocks c := f0
  obtain ⟨rfl, rfl⟩ : v1 = PVal.token ∧ m1 = MVal.plain := f1
  obtain ⟨c2, l2, rfl, rfl, n2⟩ : ∃ c l, v2 = PVal.setRight c ∧ m2 = MVal.lst l ∧ l.blocks.length = setRightBlocks c := f2
  refine ⟨_, rfl, ?_⟩
  refine Gives.perm (memSet_does o0 l2) (by simp only [List.flatMap_cons, List.flatMap_nil, MVal.blocks, ListImg.blocks, Option.toList]; blocks) ?_
  rintro m ⟨n, rfl⟩
  exact ⟨_, _, rfl, rfl, by sizes⟩

theorem xxm_52 {us : List (PVal × MVal)} (sw : Bool) (hf : List.Forall₂ (fun X (w : PVal × MVal) => FitsImg X w.1 w.2) [43] us) :
    ∃ v, xxAction 52 (us.map Prod.fst) = .ok v ∧
      Gives (xxMem sw 52 (us.map Prod.snd)) (us.flatMap fun w => w.2.blocks) (fun m => FitsImg 57 v m) := by
  simp only [List.forall₂_cons_left_iff, List.forall₂_nil_left_iff] at hf
  obtain ⟨⟨v0, m0⟩, _, f0, rfl, rfl⟩ := hf
  obtain ⟨c0, l0, a0, rfl, rfl⟩ : ∃ c l a, v0 = PVal.ints c ∧ m0 = MVal.lst (.ints l a) := f0
  refine ⟨_, rfl, ?_⟩
  exact Gives.pure (by simp only [List.flatMap_cons, List.flatMap_nil, MVal.blocks, ListImg.blocks, Option.toList]; blocks) ⟨_, _, rfl, rfl, by sizes⟩

theorem xxm_53 {us : List (PVal × MVal)} (sw : Bool) (hf : List.Forall₂ (fun X (w : PVal × MVal) => FitsImg X w.1 w.2) [45] us) :
    ∃ v, xxAction 53 (us.map Prod.fst) = .ok v ∧
      Gives (xxMem sw 53 (us.map Prod.snd)) (us.flatMap fun w => w.2.blocks) (fun m => FitsImg 57 v m) := by
  simp only [List.forall₂_cons_left_iff, List.forall₂_nil_left_iff] at hf
  obtain ⟨⟨v0, m0⟩, _, f0, rfl, rfl⟩ := hf
  obtain ⟨c0, l0, a0, s0, rfl, rfl, n0⟩ : ∃ c l a ss, v0 = PVal.strs c ∧ m0 = MVal.lst (.strs l a ss) ∧ ss.length = c.length := f0
  refine ⟨_, rfl, ?_⟩
  exact Gives.pure (by simp only [List.flatMap_cons, List.flatMap_nil, MVal.blocks, ListImg.blocks, Option.toList]; blocks) ⟨_, _, rfl, rfl, by sizes⟩

theorem xxm_54 {us : List (PVal × MVal)} (sw : Bool) (hf : List.Forall₂ (fun X (w : PVal × MVal) => FitsImg X w.1 w.2) [39, 15, 57] us) :
    ∃ v, xxAction 54 (us.map Prod.fst) = .ok v ∧
      Gives (xxMem sw 54 (us.map Prod.snd)) (us.flatMap fun w => w.2.blocks) (fun m => FitsImg 58 v m) := by
  simp only [List.forall₂_cons_left_iff, List.forall₂_nil_left_iff] at hf
  obtain ⟨⟨v0, m0⟩, _, f0, ⟨⟨v1, m1⟩, _, f1, ⟨⟨v2, m2⟩, _, f2, rfl, rfl⟩, rfl⟩, rfl⟩ := hf
  obtain ⟨x0, b0, rfl, rfl⟩ : ∃ s b, v0 = PVal.string s ∧ m0 = MVal.one b := f0
  obtain ⟨rfl, rfl⟩ : v1 = PVal.token ∧ m1 = MVal.plain := f1
  obtain ⟨c2, l2, rfl, rfl, n2⟩ : ∃ c l, v2 = PVal.list c ∧ m2 = MVal.lst l ∧ l.blocks.length = listBlocks c := f2
  refine ⟨_, rfl, ?_⟩
  refine Gives.perm (memNamed_does b0 (fun a => .list a l2) l2.blocks (fun _ => rfl)) (by simp only [List.flatMap_cons, List.flatMap_nil, MVal.blocks, ListImg.blocks, Option.toList]; blocks) ?_
  rintro m ⟨n, a, rfl⟩
  exact ⟨_, _, rfl, rfl, by sizes⟩

theorem xxm_55 {us : List (PVal × MVal)} (sw : Bool) (hf : List.Forall₂ (fun X (w : PVal × MVal) => FitsImg X w.1 w.2) [39, 16, 57] us) :
    ∃ v, xxAction 55 (us.map Prod.fst) = .ok v ∧
      Gives (xxMem sw 55 (us.map Prod.snd)) (us.flatMap fun w => w.2.blocks) (fun m => FitsImg 58 v m) := by
  simp only [List.forall₂_cons_left_iff, List.forall₂_nil_left_iff] at hf
  obtain ⟨⟨v0, m0⟩, _, f0, ⟨⟨v1, m1⟩, _, f1, ⟨⟨v2, m2⟩, _, f2, rfl, rfl⟩, rfl⟩, rfl⟩ := hf
  obtain ⟨x0, b0, rfl, rfl⟩ : ∃ s b, v0 = PVal.string s ∧ m0 = MVal.one b := f0
  obtain ⟨rfl, rfl⟩ : v1 = PVal.token ∧ m1 = MVal.plain := f1
  obtain ⟨c2, l2, rfl, rfl, n2⟩ : ∃ c l, v2 = PVal.list c ∧ m2 = MVal.lst l ∧ l.blocks.length = listBlocks c := f2
  refine ⟨_, rfl, ?_⟩
  refine Gives.perm (memNamed_does b0 (fun a => .list a l2) l2.blocks (fun _ => rfl)) (by simp only [List.flatMap_cons, List.flatMap_nil, MVal.blocks, ListImg.blocks, Option.toList]; blocks) ?_
  rintro m ⟨n, a, rfl⟩
  exact ⟨_, _, rfl, rfl, by sizes⟩

theorem xxm_56 {us : List (PVal × MVal)} (sw : Bool) (hf : List.Forall₂ (fun X (w : PVal × MVal) => FitsImg X w.1 w.2) [39, 17, 57] us) :
    ∃ v, xxAction 56 (us.map Prod.fst) = .ok v ∧
      Gives (xxMem sw 56 (us.map Prod.snd)) (us.flatMap fun w => w.2.blocks) (fun m => FitsImg 58 v m) := by
  simp only [List.forall₂_cons_left_iff, List.forall₂_nil_left_iff] at hf
  obtain ⟨⟨v0, m0⟩, _, f0, ⟨⟨v1, m1⟩, _, f1, ⟨⟨v2, m2⟩, _, f2, rfl, rfl⟩, rfl⟩, rfl⟩ := hf
  obtain ⟨x0, b0, rfl, rfl⟩ : ∃ s b, v0 = PVal.string s ∧ m0 = MVal.one b := f0
  obtain ⟨rfl, rfl⟩ : v1 = PVal.token ∧ m1 = MVal.plain := f1
  obtain ⟨c2, l2, rfl, rfl, n2⟩ : ∃ c l, v2 = PVal.list c ∧ m2 = MVal.lst l ∧ l.blocks.length = listBlocks c := f2
  refine ⟨_, rfl, ?_⟩
  refine Gives.perm (memNamed_does b0 (fun a => .list a l2) l2.blocks (fun _ => rfl)) (by simp only [List.flatMap_cons, List.flatMap_nil, MVal.blocks, ListImg.blocks, Option.toList]; blocks) ?_
  rintro m ⟨n, a, rfl⟩
  exact ⟨_, _, rfl, rfl, by sizes⟩

theorem xxm_57 {us : List (PVal × MVal)} (sw : Bool) (hf : List.Forall₂ (fun X (w : PVal × MVal) => FitsImg X w.1 w.2) [47, 18, 47] us) :
    ∃ v, xxAction 57 (us.map Prod.fst) = .ok v ∧
      Gives (xxMem sw 57 (us.map Prod.snd)) (us.flatMap fun w => w.2.blocks) (fun m => FitsImg 59 v m) := by
  simp only [List.forall₂_cons_left_iff, List.forall₂_nil_left_iff] at hf
  obtain ⟨⟨v0, m0⟩, _, f0, ⟨⟨v1, m1⟩, _, f1, ⟨⟨v2, m2⟩, _, f2, rfl, rfl⟩, rfl⟩, rfl⟩ := hf
  obtain ⟨e0, i0, rfl, rfl, n0⟩ : ∃ e i, v0 = PVal.node e ∧ m0 = MVal.node i ∧ i.blocks.length = exprBlocks e := f0
  obtain ⟨rfl, rfl⟩ : v1 = PVal.token ∧ m1 = MVal.plain := f1
  obtain ⟨e2, i2, rfl, rfl, n2⟩ : ∃ e i, v2 = PVal.node e ∧ m2 = MVal.node i ∧ i.blocks.length = exprBlocks e := f2
  refine ⟨_, rfl, ?_⟩
  refine Gives.perm (memBinary_does sw i0 i2) (by simp only [List.flatMap_cons, List.flatMap_nil, MVal.blocks, ListImg.blocks, Option.toList]; blocks) ?_
  rintro m ⟨i, rfl, hi⟩
  refine ⟨_, _, rfl, rfl, ?_⟩
  simp only [mkAnd]
  split <;> simp only [exprBlocks] <;> omega

theorem xxm_58 {us : List (PVal × MVal)} (sw : Bool) (hf : List.Forall₂ (fun X (w : PVal × MVal) => FitsImg X w.1 w.2) [47, 19, 47] us) :
    ∃ v, xxAction 58 (us.map Prod.fst) = .ok v ∧
      Gives (xxMem sw 58 (us.map Prod.snd)) (us.flatMap fun w => w.2.blocks) (fun m => FitsImg 59 v m) := by
  simp only [List.forall₂_cons_left_iff, List.forall₂_nil_left_iff] at hf
  obtain ⟨⟨v0, m0⟩, _, f0, ⟨⟨v1, m1⟩, _, f1, ⟨⟨v2, m2⟩, _, f2, rfl, rfl⟩, rfl⟩, rfl⟩ := hf
  obtain ⟨e0, i0, rfl, rfl, n0⟩ : ∃ e i, v0 = PVal.node e ∧ m0 = MVal.node i ∧ i.blocks.length = exprBlocks e := f0
  obtain ⟨rfl, rfl⟩ : v1 = PVal.token ∧ m1 = MVal.plain := f1
  obtain ⟨e2, i2, rfl, rfl, n2⟩ : ∃ e i, v2 = PVal.node e ∧ m2 = MVal.node i ∧ i.blocks.length = exprBlocks e := f2
  refine ⟨_, rfl, ?_⟩
  refine Gives.perm (memBinary_does sw i0 i2) (by simp only [List.flatMap_cons, List.flatMap_nil, MVal.blocks, ListImg.blocks, Option.toList]; blocks) ?_
  rintro m ⟨i, rfl, hi⟩
  refine ⟨_, _, rfl, rfl, ?_⟩
  simp only [mkOr]
  split <;> simp only [exprBlocks] <;> omega

theorem xxm_59 {us : List (PVal × MVal)} (sw : Bool) (hf : List.Forall₂ (fun X (w : PVal × MVal) => FitsImg X w.1 w.2) [20, 47] us) :
    ∃ v, xxAction 59 (us.map Prod.fst) = .ok v ∧
      Gives (xxMem sw 59 (us.map Prod.snd)) (us.flatMap fun w => w.2.blocks) (fun m => FitsImg 59 v m) := by
  simp only [List.forall₂_cons_left_iff, List.forall₂_nil_left_iff] at hf
  obtain ⟨⟨v0, m0⟩, _, f0, ⟨⟨v1, m1⟩, _, f1, rfl, rfl⟩, rfl⟩ := hf
  obtain ⟨rfl, rfl⟩ : v0 = PVal.token ∧ m0 = MVal.plain := f0
  obtain ⟨e1, i1, rfl, rfl, n1⟩ : ∃ e i, v1 = PVal.node e ∧ m1 = MVal.node i ∧ i.blocks.length = exprBlocks e := f1
  refine ⟨_, rfl, ?_⟩
  exact Does.malloc fun n => Gives.pure (by simp only [List.flatMap_cons, List.flatMap_nil, MVal.blocks, ListImg.blocks, Img.blocks]; blocks) ⟨_, _, rfl, rfl, by sizes⟩

theorem xxm_60 {us : List (PVal × MVal)} (sw : Bool) (hf : List.Forall₂ (fun X (w : PVal × MVal) => FitsImg X w.1 w.2) [39] us) :
    ∃ v, xxAction 60 (us.map Prod.fst) = .ok v ∧
      Gives (xxMem sw 60 (us.map Prod.snd)) (us.flatMap fun w => w.2.blocks) (fun m => FitsImg 59 v m) := by
  simp only [List.forall₂_cons_left_iff, List.forall₂_nil_left_iff] at hf
  obtain ⟨⟨v0, m0⟩, _, f0, rfl, rfl⟩ := hf
  obtain ⟨x0, b0, rfl, rfl⟩ : ∃ s b, v0 = PVal.string s ∧ m0 = MVal.one b := f0
  refine ⟨_, rfl, ?_⟩
  refine Gives.perm (memNamed_does b0 .boolVar [] (fun _ => rfl)) (by simp only [List.flatMap_cons, List.flatMap_nil, MVal.blocks, ListImg.blocks, Option.toList]; blocks) ?_
  rintro m ⟨n, a, rfl⟩
  exact ⟨_, _, rfl, rfl, by sizes⟩

theorem xxm_61 {us : List (PVal × MVal)} (sw : Bool) (hf : List.Forall₂ (fun X (w : PVal × MVal) => FitsImg X w.1 w.2) [31] us) :
    ∃ v, xxAction 61 (us.map Prod.fst) = .ok v ∧
      Gives (xxMem sw 61 (us.map Prod.snd)) (us.flatMap fun w => w.2.blocks) (fun m => FitsImg 59 v m) := by
  simp only [List.forall₂_cons_left_iff, List.forall₂_nil_left_iff] at hf
  obtain ⟨⟨v0, m0⟩, _, f0, rfl, rfl⟩ := hf
  obtain ⟨rfl, rfl⟩ : v0 = PVal.token ∧ m0 = MVal.plain := f0
  refine ⟨_, rfl, ?_⟩
  refine Gives.perm (memLiteral_does) (by simp only [List.flatMap_cons, List.flatMap_nil, MVal.blocks, ListImg.blocks, Option.toList]; blocks) ?_
  rintro m ⟨n, rfl⟩
  exact ⟨_, _, rfl, rfl, by sizes⟩

theorem xxm_62 {us : List (PVal × MVal)} (sw : Bool) (hf : List.Forall₂ (fun X (w : PVal × MVal) => FitsImg X w.1 w.2) [32] us) :
    ∃ v, xxAction 62 (us.map Prod.fst) = .ok v ∧
      Gives (xxMem sw 62 (us.map Prod.snd)) (us.flatMap fun w => w.2.blocks) (fun m => FitsImg 59 v m) := by
  simp only [List.forall₂_cons_left_iff, List.forall₂_nil_left_iff] at hf
  obtain ⟨⟨v0, m0⟩, _, f0, rfl, rfl⟩ := hf
  obtain ⟨rfl, rfl⟩ : v0 = PVal.token ∧ m0 = MVal.plain := f0
  refine ⟨_, rfl, ?_⟩
  refine Gives.perm (memLiteral_does) (by simp only [List.flatMap_cons, List.flatMap_nil, MVal.blocks, ListImg.blocks, Option.toList]; blocks) ?_
  rintro m ⟨n, rfl⟩
  exact ⟨_, _, rfl, rfl, by sizes⟩

theorem xxm_63 {us : List (PVal × MVal)} (sw : Bool) (hf : List.Forall₂ (fun X (w : PVal × MVal) => FitsImg X w.1 w.2) [61] us) :
    ∃ v, xxAction 63 (us.map Prod.fst) = .ok v ∧
      Gives (xxMem sw 63 (us.map Prod.snd)) (us.flatMap fun w => w.2.blocks) (fun m => FitsImg 60 v m) := by
  simp only [List.forall₂_cons_left_iff, List.forall₂_nil_left_iff] at hf
  obtain ⟨⟨v0, m0⟩, _, f0, rfl, rfl⟩ := hf
  obtain ⟨e0, i0, rfl, rfl, n0⟩ : ∃ e i, v0 = PVal.node e ∧ m0 = MVal.node i ∧ i.blocks.length = exprBlocks e := f0
  refine ⟨_, rfl, ?_⟩
  exact Gives.pure (by simp only [List.flatMap_cons, List.flatMap_nil, MVal.blocks, ListImg.blocks, Option.toList]; blocks) ⟨_, _, rfl, rfl, by sizes⟩

theorem xxm_64 {us : List (PVal × MVal)} (sw : Bool) (hf : List.Forall₂ (fun X (w : PVal × MVal) => FitsImg X w.1 w.2) [62] us) :
    ∃ v, xxAction 64 (us.map Prod.fst) = .ok v ∧
      Gives (xxMem sw 64 (us.map Prod.snd)) (us.flatMap fun w => w.2.blocks) (fun m => FitsImg 60 v m) := by
  simp only [List.forall₂_cons_left_iff, List.forall₂_nil_left_iff] at hf
  obtain ⟨⟨v0, m0⟩, _, f0, rfl, rfl⟩ := hf
  obtain ⟨e0, i0, rfl, rfl, n0⟩ : ∃ e i, v0 = PVal.node e ∧ m0 = MVal.node i ∧ i.blocks.length = exprBlocks e := f0
  refine ⟨_, rfl, ?_⟩
  exact Gives.pure (by simp only [List.flatMap_cons, List.flatMap_nil, MVal.blocks, ListImg.blocks, Option.toList]; blocks) ⟨_, _, rfl, rfl, by sizes⟩

theorem xxm_65 {us : List (PVal × MVal)} (sw : Bool) (hf : List.Forall₂ (fun X (w : PVal × MVal) => FitsImg X w.1 w.2) [63] us) :
    ∃ v, xxAction 65 (us.map Prod.fst) = .ok v ∧
      Gives (xxMem sw 65 (us.map Prod.snd)) (us.flatMap fun w => w.2.blocks) (fun m => FitsImg 60 v m) := by
  simp only [List.forall₂_cons_left_iff, List.forall₂_nil_left_iff] at hf
  obtain ⟨⟨v0, m0⟩, _, f0, rfl, rfl⟩ := hf
  obtain ⟨e0, i0, rfl, rfl, n0⟩ : ∃ e i, v0 = PVal.node e ∧ m0 = MVal.node i ∧ i.blocks.length = exprBlocks e := f0
  refine ⟨_, rfl, ?_⟩
  exact Gives.pure (by simp only [List.flatMap_cons, List.flatMap_nil, MVal.blocks, ListImg.blocks, Option.toList]; blocks) ⟨_, _, rfl, rfl, by sizes⟩

theorem xxm_66 {us : List (PVal × MVal)} (sw : Bool) (hf : List.Forall₂ (fun X (w : PVal × MVal) => FitsImg X w.1 w.2) [64] us) :
    ∃ v, xxAction 66 (us.map Prod.fst) = .ok v ∧
      Gives (xxMem sw 66 (us.map Prod.snd)) (us.flatMap fun w => w.2.blocks) (fun m => FitsImg 60 v m) := by
  simp only [List.forall₂_cons_left_iff, List.forall₂_nil_left_iff] at hf
  obtain ⟨⟨v0, m0⟩, _, f0, rfl, rfl⟩ := hf
  obtain ⟨e0, i0, rfl, rfl, n0⟩ : ∃ e i, v0 = PVal.node e ∧ m0 = MVal.node i ∧ i.blocks.length = exprBlocks e := f0
  refine ⟨_, rfl, ?_⟩
  exact Gives.pure (by simp only [List.flatMap_cons, List.flatMap_nil, MVal.blocks, ListImg.blocks, Option.toList]; blocks) ⟨_, _, rfl, rfl, by sizes⟩

theorem xxm_67 {us : List (PVal × MVal)} (sw : Bool) (hf : List.Forall₂ (fun X (w : PVal × MVal) => FitsImg X w.1 w.2) [21, 10, 33, 12, 42, 12, 40, 12, 40, 11] us) :
    ∃ v, xxAction 67 (us.map Prod.fst) = .ok v ∧
      Gives (xxMem sw 67 (us.map Prod.snd)) (us.flatMap fun w => w.2.blocks) (fun m => FitsImg 61 v m) := by
  simp only [List.forall₂_cons_left_iff, List.forall₂_nil_left_iff] at hf
  obtain ⟨⟨v0, m0⟩, _, f0, ⟨⟨v1, m1⟩, _, f1, ⟨⟨v2, m2⟩, _, f2, ⟨⟨v3, m3⟩, _, f3, ⟨⟨v4, m4⟩, _, f4, ⟨⟨v5, m5⟩, _, f5, ⟨⟨v6, m6⟩, _, f6, ⟨⟨v7, m7⟩, _, f7, ⟨⟨v8, m8⟩, _, f8, ⟨⟨v9, m9⟩, _, f9, rfl, rfl⟩, rfl⟩, rfl⟩, rfl⟩, rfl⟩, rfl⟩, rfl⟩, rfl⟩, rfl⟩, rfl⟩ := hf
  obtain ⟨rfl, rfl⟩ : v0 = PVal.token ∧ m0 = MVal.plain := f0
  obtain ⟨rfl, rfl⟩ : v1 = PVal.token ∧ m1 = MVal.plain := f1
  obtain ⟨x2, b2, rfl, rfl⟩ : ∃ s b, v2 = PVal.string s ∧ m2 = MVal.one b := f2
  obtain ⟨rfl, rfl⟩ : v3 = PVal.token ∧ m3 = MVal.plain := f3
  obtain ⟨x4, b4, rfl, rfl⟩ : ∃ s b, v4 = PVal.strVal s ∧ m4 = MVal.one b := f4
  obtain ⟨rfl, rfl⟩ : v5 = PVal.token ∧ m5 = MVal.plain := f5
  obtain ⟨⟨x6, rfl⟩, rfl⟩ : (∃ n, v6 = PVal.int n) ∧ m6 = MVal.plain := f6
  obtain ⟨rfl, rfl⟩ : v7 = PVal.token ∧ m7 = MVal.plain := f7
  obtain ⟨⟨x8, rfl⟩, rfl⟩ : (∃ n, v8 = PVal.int n) ∧ m8 = MVal.plain := f8
  obtain ⟨rfl, rfl⟩ : v9 = PVal.token ∧ m9 = MVal.plain := f9
  refine ⟨_, rfl, ?_⟩
  refine Gives.perm (memFrequency_does b2 b4) (by simp only [List.flatMap_cons, List.flatMap_nil, MVal.blocks, ListImg.blocks, Option.toList]; blocks) ?_
  rintro m ⟨n, a, p, rfl⟩
  exact ⟨_, _, rfl, rfl, by sizes⟩

theorem xxm_68 {us : List (PVal × MVal)} (sw : Bool) (hf : List.Forall₂ (fun X (w : PVal × MVal) => FitsImg X w.1 w.2) [22, 10, 40, 12, 40, 11] us) :
    ∃ v, xxAction 68 (us.map Prod.fst) = .ok v ∧
      Gives (xxMem sw 68 (us.map Prod.snd)) (us.flatMap fun w => w.2.blocks) (fun m => FitsImg 62 v m) := by
  simp only [List.forall₂_cons_left_iff, List.forall₂_nil_left_iff] at hf
  obtain ⟨⟨v0, m0⟩, _, f0, ⟨⟨v1, m1⟩, _, f1, ⟨⟨v2, m2⟩, _, f2, ⟨⟨v3, m3⟩, _, f3, ⟨⟨v4, m4⟩, _, f4, ⟨⟨v5, m5⟩, _, f5, rfl, rfl⟩, rfl⟩, rfl⟩, rfl⟩, rfl⟩, rfl⟩ := hf
  obtain ⟨rfl, rfl⟩ : v0 = PVal.token ∧ m0 = MVal.plain := f0
  obtain ⟨rfl, rfl⟩ : v1 = PVal.token ∧ m1 = MVal.plain := f1
  obtain ⟨⟨x2, rfl⟩, rfl⟩ : (∃ n, v2 = PVal.int n) ∧ m2 = MVal.plain := f2
  obtain ⟨rfl, rfl⟩ : v3 = PVal.token ∧ m3 = MVal.plain := f3
  obtain ⟨⟨x4, rfl⟩, rfl⟩ : (∃ n, v4 = PVal.int n) ∧ m4 = MVal.plain := f4
  obtain ⟨rfl, rfl⟩ : v5 = PVal.token ∧ m5 = MVal.plain := f5
  refine ⟨_, rfl, ?_⟩
  refine Gives.perm (memSegment_does none) (by simp only [List.flatMap_cons, List.flatMap_nil, MVal.blocks, ListImg.blocks, Option.toList]; blocks) ?_
  rintro m ⟨n, a, p, rfl⟩
  exact ⟨_, _, rfl, rfl, by sizes⟩

theorem xxm_69 {us : List (PVal × MVal)} (sw : Bool) (hf : List.Forall₂ (fun X (w : PVal × MVal) => FitsImg X w.1 w.2) [22, 10, 39, 12, 40, 12, 40, 11] us) :
    ∃ v, xxAction 69 (us.map Prod.fst) = .ok v ∧
      Gives (xxMem sw 69 (us.map Prod.snd)) (us.flatMap fun w => w.2.blocks) (fun m => FitsImg 62 v m) := by
  simp only [List.forall₂_cons_left_iff, List.forall₂_nil_left_iff] at hf
  obtain ⟨⟨v0, m0⟩, _, f0, ⟨⟨v1, m1⟩, _, f1, ⟨⟨v2, m2⟩, _, f2, ⟨⟨v3, m3⟩, _, f3, ⟨⟨v4, m4⟩, _, f4, ⟨⟨v5, m5⟩, _, f5, ⟨⟨v6, m6⟩, _, f6, ⟨⟨v7, m7⟩, _, f7, rfl, rfl⟩, rfl⟩, rfl⟩, rfl⟩, rfl⟩, rfl⟩, rfl⟩, rfl⟩ := hf
  obtain ⟨rfl, rfl⟩ : v0 = PVal.token ∧ m0 = MVal.plain := f0
  obtain ⟨rfl, rfl⟩ : v1 = PVal.token ∧ m1 = MVal.plain := f1
  obtain ⟨x2, b2, rfl, rfl⟩ : ∃ s b, v2 = PVal.string s ∧ m2 = MVal.one b := f2
  obtain ⟨rfl, rfl⟩ : v3 = PVal.token ∧ m3 = MVal.plain := f3
  obtain ⟨⟨x4, rfl⟩, rfl⟩ : (∃ n, v4 = PVal.int n) ∧ m4 = MVal.plain := f4
  obtain ⟨rfl, rfl⟩ : v5 = PVal.token ∧ m5 = MVal.plain := f5
  obtain ⟨⟨x6, rfl⟩, rfl⟩ : (∃ n, v6 = PVal.int n) ∧ m6 = MVal.plain := f6
  obtain ⟨rfl, rfl⟩ : v7 = PVal.token ∧ m7 = MVal.plain := f7
  refine ⟨_, rfl, ?_⟩
  refine Gives.perm (memSegment_does (some b2)) (by simp only [List.flatMap_cons, List.flatMap_nil, MVal.blocks, ListImg.blocks, Option.toList]; blocks) ?_
  rintro m ⟨n, a, p, rfl⟩
  exact ⟨_, _, rfl, rfl, by sizes⟩

theorem xxm_70 {us : List (PVal × MVal)} (sw : Bool) (hf : List.Forall₂ (fun X (w : PVal × MVal) => FitsImg X w.1 w.2) [23, 10, 40, 12, 40, 11] us) :
    ∃ v, xxAction 70 (us.map Prod.fst) = .ok v ∧
      Gives (xxMem sw 70 (us.map Prod.snd)) (us.flatMap fun w => w.2.blocks) (fun m => FitsImg 62 v m) := by
  simp only [List.forall₂_cons_left_iff, List.forall₂_nil_left_iff] at hf
  obtain ⟨⟨v0, m0⟩, _, f0, ⟨⟨v1, m1⟩, _, f1, ⟨⟨v2, m2⟩, _, f2, ⟨⟨v3, m3⟩, _, f3, ⟨⟨v4, m4⟩, _, f4, ⟨⟨v5, m5⟩, _, f5, rfl, rfl⟩, rfl⟩, rfl⟩, rfl⟩, rfl⟩, rfl⟩ := hf
  obtain ⟨rfl, rfl⟩ : v0 = PVal.token ∧ m0 = MVal.plain := f0
  obtain ⟨rfl, rfl⟩ : v1 = PVal.token ∧ m1 = MVal.plain := f1
  obtain ⟨⟨x2, rfl⟩, rfl⟩ : (∃ n, v2 = PVal.int n) ∧ m2 = MVal.plain := f2
  obtain ⟨rfl, rfl⟩ : v3 = PVal.token ∧ m3 = MVal.plain := f3
  obtain ⟨⟨x4, rfl⟩, rfl⟩ : (∃ n, v4 = PVal.int n) ∧ m4 = MVal.plain := f4
  obtain ⟨rfl, rfl⟩ : v5 = PVal.token ∧ m5 = MVal.plain := f5
  refine ⟨_, rfl, ?_⟩
  refine Gives.perm (memSegment_does none) (by simp only [List.flatMap_cons, List.flatMap_nil, MVal.blocks, ListImg.blocks, Option.toList]; blocks) ?_
  rintro m ⟨n, a, p, rfl⟩
  exact ⟨_, _, rfl, rfl, by sizes⟩

theorem xxm_71 {us : List (PVal × MVal)} (sw : Bool) (hf : List.Forall₂ (fun X (w : PVal × MVal) => FitsImg X w.1 w.2) [23, 10, 39, 12, 40, 12, 40, 11] us) :
    ∃ v, xxAction 71 (us.map Prod.fst) = .ok v ∧
      Gives (xxMem sw 71 (us.map Prod.snd)) (us.flatMap fun w => w.2.blocks) (fun m => FitsImg 62 v m) := by
  simp only [List.forall₂_cons_left_iff, List.forall₂_nil_left_iff] at hf
  obtain ⟨⟨v0, m0⟩, _, f0, ⟨⟨v1, m1⟩, _, f1, ⟨⟨v2, m2⟩, _, f2, ⟨⟨v3, m3⟩, _, f3, ⟨⟨v4, m4⟩, _, f4, ⟨⟨v5, m5⟩, _, f5, ⟨⟨v6, m6⟩, _, f6, ⟨⟨v7, m7⟩, _, f7, rfl, rfl⟩, rfl⟩, rfl⟩, rfl⟩, rfl⟩, rfl⟩, rfl⟩, rfl⟩ := hf
  obtain ⟨rfl, rfl⟩ : v0 = PVal.token ∧ m0 = MVal.plain := f0
  obtain ⟨rfl, rfl⟩ : v1 = PVal.token ∧ m1 = MVal.plain := f1
  obtain ⟨x2, b2, rfl, rfl⟩ : ∃ s b, v2 = PVal.string s ∧ m2 = MVal.one b := f2
  obtain ⟨rfl, rfl⟩ : v3 = PVal.token ∧ m3 = MVal.plain := f3
  obtain ⟨⟨x4, rfl⟩, rfl⟩ : (∃ n, v4 = PVal.int n) ∧ m4 = MVal.plain := f4
  obtain ⟨rfl, rfl⟩ : v5 = PVal.token ∧ m5 = MVal.plain := f5
  obtain ⟨⟨x6, rfl⟩, rfl⟩ : (∃ n, v6 = PVal.int n) ∧ m6 = MVal.plain := f6
  obtain ⟨rfl, rfl⟩ : v7 = PVal.token ∧ m7 = MVal.plain := f7
  refine ⟨_, rfl, ?_⟩
  refine Gives.perm (memSegment_does (some b2)) (by simp only [List.flatMap_cons, List.flatMap_nil, MVal.blocks, ListImg.blocks, Option.toList]; blocks) ?_
  rintro m ⟨n, a, p, rfl⟩
  exact ⟨_, _, rfl, rfl, by sizes⟩

theorem xxm_72 {us : List (PVal × MVal)} (sw : Bool) (hf : List.Forall₂ (fun X (w : PVal × MVal) => FitsImg X w.1 w.2) [24, 10, 40, 12, 40, 12, 40, 11] us) :
    ∃ v, xxAction 72 (us.map Prod.fst) = .ok v ∧
      Gives (xxMem sw 72 (us.map Prod.snd)) (us.flatMap fun w => w.2.blocks) (fun m => FitsImg 63 v m) := by
  simp only [List.forall₂_cons_left_iff, List.forall₂_nil_left_iff] at hf
  obtain ⟨⟨v0, m0⟩, _, f0, ⟨⟨v1, m1⟩, _, f1, ⟨⟨v2, m2⟩, _, f2, ⟨⟨v3, m3⟩, _, f3, ⟨⟨v4, m4⟩, _, f4, ⟨⟨v5, m5⟩, _, f5, ⟨⟨v6, m6⟩, _, f6, ⟨⟨v7, m7⟩, _, f7, rfl, rfl⟩, rfl⟩, rfl⟩, rfl⟩, rfl⟩, rfl⟩, rfl⟩, rfl⟩ := hf
  obtain ⟨rfl, rfl⟩ : v0 = PVal.token ∧ m0 = MVal.plain := f0
  obtain ⟨rfl, rfl⟩ : v1 = PVal.token ∧ m1 = MVal.plain := f1
  obtain ⟨⟨x2, rfl⟩, rfl⟩ : (∃ n, v2 = PVal.int n) ∧ m2 = MVal.plain := f2
  obtain ⟨rfl, rfl⟩ : v3 = PVal.token ∧ m3 = MVal.plain := f3
  obtain ⟨⟨x4, rfl⟩, rfl⟩ : (∃ n, v4 = PVal.int n) ∧ m4 = MVal.plain := f4
  obtain ⟨rfl, rfl⟩ : v5 = PVal.token ∧ m5 = MVal.plain := f5
  obtain ⟨⟨x6, rfl⟩, rfl⟩ : (∃ n, v6 = PVal.int n) ∧ m6 = MVal.plain := f6
  obtain ⟨rfl, rfl⟩ : v7 = PVal.token ∧ m7 = MVal.plain := f7
  refine ⟨_, rfl, ?_⟩
  refine Gives.perm (memGeo_does) (by simp only [List.flatMap_cons, List.flatMap_nil, MVal.blocks, ListImg.blocks, Option.toList]; blocks) ?_
  rintro m ⟨n, a, p, rfl⟩
  exact ⟨_, _, rfl, rfl, by sizes⟩

theorem xxm_73 {us : List (PVal × MVal)} (sw : Bool) (hf : List.Forall₂ (fun X (w : PVal × MVal) => FitsImg X w.1 w.2) [24, 10, 41, 12, 41, 12, 41, 11] us) :
    ∃ v, xxAction 73 (us.map Prod.fst) = .ok v ∧
      Gives (xxMem sw 73 (us.map Prod.snd)) (us.flatMap fun w => w.2.blocks) (fun m => FitsImg 63 v m) := by
  simp only [List.forall₂_cons_left_iff, List.forall₂_nil_left_iff] at hf
  obtain ⟨⟨v0, m0⟩, _, f0, ⟨⟨v1, m1⟩, _, f1, ⟨⟨v2, m2⟩, _, f2, ⟨⟨v3, m3⟩, _, f3, ⟨⟨v4, m4⟩, _, f4, ⟨⟨v5, m5⟩, _, f5, ⟨⟨v6, m6⟩, _, f6, ⟨⟨v7, m7⟩, _, f7, rfl, rfl⟩, rfl⟩, rfl⟩, rfl⟩, rfl⟩, rfl⟩, rfl⟩, rfl⟩ := hf
  obtain ⟨rfl, rfl⟩ : v0 = PVal.token ∧ m0 = MVal.plain := f0
  obtain ⟨rfl, rfl⟩ : v1 = PVal.token ∧ m1 = MVal.plain := f1
  obtain ⟨⟨x2, rfl⟩, rfl⟩ : (∃ n, v2 = PVal.float n) ∧ m2 = MVal.plain := f2
  obtain ⟨rfl, rfl⟩ : v3 = PVal.token ∧ m3 = MVal.plain := f3
  obtain ⟨⟨x4, rfl⟩, rfl⟩ : (∃ n, v4 = PVal.float n) ∧ m4 = MVal.plain := f4
  obtain ⟨rfl, rfl⟩ : v5 = PVal.token ∧ m5 = MVal.plain := f5
  obtain ⟨⟨x6, rfl⟩, rfl⟩ : (∃ n, v6 = PVal.float n) ∧ m6 = MVal.plain := f6
  obtain ⟨rfl, rfl⟩ : v7 = PVal.token ∧ m7 = MVal.plain := f7
  refine ⟨_, rfl, ?_⟩
  refine Gives.perm (memGeo_does) (by simp only [List.flatMap_cons, List.flatMap_nil, MVal.blocks, ListImg.blocks, Option.toList]; blocks) ?_
  rintro m ⟨n, a, p, rfl⟩
  exact ⟨_, _, rfl, rfl, by sizes⟩

theorem xxm_74 {us : List (PVal × MVal)} (sw : Bool) (hf : List.Forall₂ (fun X (w : PVal × MVal) => FitsImg X w.1 w.2) [25, 10, 39, 12, 42, 11] us) :
    ∃ v, xxAction 74 (us.map Prod.fst) = .ok v ∧
      Gives (xxMem sw 74 (us.map Prod.snd)) (us.flatMap fun w => w.2.blocks) (fun m => FitsImg 64 v m) := by
  simp only [List.forall₂_cons_left_iff, List.forall₂_nil_left_iff] at hf
  obtain ⟨⟨v0, m0⟩, _, f0, ⟨⟨v1, m1⟩, _, f1, ⟨⟨v2, m2⟩, _, f2, ⟨⟨v3, m3⟩, _, f3, ⟨⟨v4, m4⟩, _, f4, ⟨⟨v5, m5⟩, _, f5, rfl, rfl⟩, rfl⟩, rfl⟩, rfl⟩, rfl⟩, rfl⟩ := hf
  obtain ⟨rfl, rfl⟩ : v0 = PVal.token ∧ m0 = MVal.plain := f0
  obtain ⟨rfl, rfl⟩ : v1 = PVal.token ∧ m1 = MVal.plain := f1
  obtain ⟨x2, b2, rfl, rfl⟩ : ∃ s b, v2 = PVal.string s ∧ m2 = MVal.one b := f2
  obtain ⟨rfl, rfl⟩ : v3 = PVal.token ∧ m3 = MVal.plain := f3
  obtain ⟨x4, b4, rfl, rfl⟩ : ∃ s b, v4 = PVal.strVal s ∧ m4 = MVal.one b := f4
  obtain ⟨rfl, rfl⟩ : v5 = PVal.token ∧ m5 = MVal.plain := f5
  refine ⟨_, rfl, ?_⟩
  refine Gives.perm (memString_does b2 b4) (by simp only [List.flatMap_cons, List.flatMap_nil, MVal.blocks, ListImg.blocks, Option.toList]; blocks) ?_
  rintro m ⟨n, a, p, rfl⟩
  exact ⟨_, _, rfl, rfl, by sizes⟩

theorem xxm_75 {us : List (PVal × MVal)} (sw : Bool) (hf : List.Forall₂ (fun X (w : PVal × MVal) => FitsImg X w.1 w.2) [26, 10, 39, 12, 42, 11] us) :
    ∃ v, xxAction 75 (us.map Prod.fst) = .ok v ∧
      Gives (xxMem sw 75 (us.map Prod.snd)) (us.flatMap fun w => w.2.blocks) (fun m => FitsImg 64 v m) := by
  simp only [List.forall₂_cons_left_iff, List.forall₂_nil_left_iff] at hf
  obtain ⟨⟨v0, m0⟩, _, f0, ⟨⟨v1, m1⟩, _, f1, ⟨⟨v2, m2⟩, _, f2, ⟨⟨v3, m3⟩, _, f3, ⟨⟨v4, m4⟩, _, f4, ⟨⟨v5, m5⟩, _, f5, rfl, rfl⟩, rfl⟩, rfl⟩, rfl⟩, rfl⟩, rfl⟩ := hf
  obtain ⟨rfl, rfl⟩ : v0 = PVal.token ∧ m0 = MVal.plain := f0
  obtain ⟨rfl, rfl⟩ : v1 = PVal.token ∧ m1 = MVal.plain := f1
  obtain ⟨x2, b2, rfl, rfl⟩ : ∃ s b, v2 = PVal.string s ∧ m2 = MVal.one b := f2
  obtain ⟨rfl, rfl⟩ : v3 = PVal.token ∧ m3 = MVal.plain := f3
  obtain ⟨x4, b4, rfl, rfl⟩ : ∃ s b, v4 = PVal.strVal s ∧ m4 = MVal.one b := f4
  obtain ⟨rfl, rfl⟩ : v5 = PVal.token ∧ m5 = MVal.plain := f5
  refine ⟨_, rfl, ?_⟩
  refine Gives.perm (memString_does b2 b4) (by simp only [List.flatMap_cons, List.flatMap_nil, MVal.blocks, ListImg.blocks, Option.toList]; blocks) ?_
  rintro m ⟨n, a, p, rfl⟩
  exact ⟨_, _, rfl, rfl, by sizes⟩

theorem xxm_76 {us : List (PVal × MVal)} (sw : Bool) (hf : List.Forall₂ (fun X (w : PVal × MVal) => FitsImg X w.1 w.2) [27, 10, 39, 12, 42, 11] us) :
    ∃ v, xxAction 76 (us.map Prod.fst) = .ok v ∧
      Gives (xxMem sw 76 (us.map Prod.snd)) (us.flatMap fun w => w.2.blocks) (fun m => FitsImg 64 v m) := by
  simp only [List.forall₂_cons_left_iff, List.forall₂_nil_left_iff] at hf
  obtain ⟨⟨v0, m0⟩, _, f0, ⟨⟨v1, m1⟩, _, f1, ⟨⟨v2, m2⟩, _, f2, ⟨⟨v3, m3⟩, _, f3, ⟨⟨v4, m4⟩, _, f4, ⟨⟨v5, m5⟩, _, f5, rfl, rfl⟩, rfl⟩, rfl⟩, rfl⟩, rfl⟩, rfl⟩ := hf
  obtain ⟨rfl, rfl⟩ : v0 = PVal.token ∧ m0 = MVal.plain := f0
  obtain ⟨rfl, rfl⟩ : v1 = PVal.token ∧ m1 = MVal.plain := f1
  obtain ⟨x2, b2, rfl, rfl⟩ : ∃ s b, v2 = PVal.string s ∧ m2 = MVal.one b := f2
  obtain ⟨rfl, rfl⟩ : v3 = PVal.token ∧ m3 = MVal.plain := f3
  obtain ⟨x4, b4, rfl, rfl⟩ : ∃ s b, v4 = PVal.strVal s ∧ m4 = MVal.one b := f4
  obtain ⟨rfl, rfl⟩ : v5 = PVal.token ∧ m5 = MVal.plain := f5
  refine ⟨_, rfl, ?_⟩
  refine Gives.perm (memString_does b2 b4) (by simp only [List.flatMap_cons, List.flatMap_nil, MVal.blocks, ListImg.blocks, Option.toList]; blocks) ?_
  rintro m ⟨n, a, p, rfl⟩
  exact ⟨_, _, rfl, rfl, by sizes⟩

theorem xxm_rules (nt : Nat) (us : List (PVal × MVal)) (sw : Bool) : (r : Nat) → r ≠ 0 → r ≠ 1 →
    List.Forall₂ (fun X (w : PVal × MVal) => FitsImg X w.1 w.2) (xxCert.rule r) us → xxTables.r1[r]? = some nt →
    ∃ v, xxAction r (us.map Prod.fst) = .ok v ∧
      Gives (xxMem sw r (us.map Prod.snd)) (us.flatMap fun w => w.2.blocks) (fun m => FitsImg nt v m)
  | 0, h, _, _, _ => absurd rfl h
  | 1, _, h, _, _ => absurd rfl h
  | 2, _, _, hf, hr => by
    obtain rfl : 38 = nt := Option.some.inj hr
    exact xxm_2 sw hf
  | 3, _, _, hf, hr => by
    obtain rfl : 39 = nt := Option.some.inj hr
    exact xxm_3 sw hf
  | 4, _, _, hf, hr => by
    obtain rfl : 40 = nt := Option.some.inj hr
    exact xxm_4 sw hf
  | 5, _, _, hf, hr => by
    obtain rfl : 40 = nt := Option.some.inj hr
    exact xxm_5 sw hf
  | 6, _, _, hf, hr => by
    obtain rfl : 41 = nt := Option.some.inj hr
    exact xxm_6 sw hf
  | 7, _, _, hf, hr => by
    obtain rfl : 41 = nt := Option.some.inj hr
    exact xxm_7 sw hf
  | 8, _, _, hf, hr => by
    obtain rfl : 42 = nt := Option.some.inj hr
    exact xxm_8 sw hf
  | 9, _, _, hf, hr => by
    obtain rfl : 43 = nt := Option.some.inj hr
    exact xxm_9 sw hf
  | 10, _, _, hf, hr => by
    obtain rfl : 44 = nt := Option.some.inj hr
    exact xxm_10 sw hf
  | 11, _, _, hf, hr => by
    obtain rfl : 44 = nt := Option.some.inj hr
    exact xxm_11 sw hf
  | 12, _, _, hf, hr => by
    obtain rfl : 45 = nt := Option.some.inj hr
    exact xxm_12 sw hf
  | 13, _, _, hf, hr => by
    obtain rfl : 46 = nt := Option.some.inj hr
    exact xxm_13 sw hf
  | 14, _, _, hf, hr => by
    obtain rfl : 46 = nt := Option.some.inj hr
    exact xxm_14 sw hf
  | 15, _, _, hf, hr => by
    obtain rfl : 47 = nt := Option.some.inj hr
    exact xxm_15 sw hf
  | 16, _, _, hf, hr => by
    obtain rfl : 47 = nt := Option.some.inj hr
    exact xxm_16 sw hf
  | 17, _, _, hf, hr => by
    obtain rfl : 47 = nt := Option.some.inj hr
    exact xxm_17 sw hf
  | 18, _, _, hf, hr => by
    obtain rfl : 47 = nt := Option.some.inj hr
    exact xxm_18 sw hf
  | 19, _, _, hf, hr => by
    obtain rfl : 47 = nt := Option.some.inj hr
    exact xxm_19 sw hf
  | 20, _, _, hf, hr => by
    obtain rfl : 47 = nt := Option.some.inj hr
    exact xxm_20 sw hf
  | 21, _, _, hf, hr => by
    obtain rfl : 47 = nt := Option.some.inj hr
    exact xxm_21 sw hf
  | 22, _, _, hf, hr => by
    obtain rfl : 47 = nt := Option.some.inj hr
    exact xxm_22 sw hf
  | 23, _, _, hf, hr => by
    obtain rfl : 48 = nt := Option.some.inj hr
    exact xxm_23 sw hf
  | 24, _, _, hf, hr => by
    obtain rfl : 48 = nt := Option.some.inj hr
    exact xxm_24 sw hf
  | 25, _, _, hf, hr => by
    obtain rfl : 48 = nt := Option.some.inj hr
    exact xxm_25 sw hf
  | 26, _, _, hf, hr => by
    obtain rfl : 49 = nt := Option.some.inj hr
    exact xxm_26 sw hf
  | 27, _, _, hf, hr => by
    obtain rfl : 49 = nt := Option.some.inj hr
    exact xxm_27 sw hf
  | 28, _, _, hf, hr => by
    obtain rfl : 50 = nt := Option.some.inj hr
    exact xxm_28 sw hf
  | 29, _, _, hf, hr => by
    obtain rfl : 50 = nt := Option.some.inj hr
    exact xxm_29 sw hf
  | 30, _, _, hf, hr => by
    obtain rfl : 50 = nt := Option.some.inj hr
    exact xxm_30 sw hf
  | 31, _, _, hf, hr => by
    obtain rfl : 50 = nt := Option.some.inj hr
    exact xxm_31 sw hf
  | 32, _, _, hf, hr => by
    obtain rfl : 50 = nt := Option.some.inj hr
    exact xxm_32 sw hf
  | 33, _, _, hf, hr => by
    obtain rfl : 50 = nt := Option.some.inj hr
    exact xxm_33 sw hf
  | 34, _, _, hf, hr => by
    obtain rfl : 50 = nt := Option.some.inj hr
    exact xxm_34 sw hf
  | 35, _, _, hf, hr => by
    obtain rfl : 50 = nt := Option.some.inj hr
    exact xxm_35 sw hf
  | 36, _, _, hf, hr => by
    obtain rfl : 51 = nt := Option.some.inj hr
    exact xxm_36 sw hf
  | 37, _, _, hf, hr => by
    obtain rfl : 51 = nt := Option.some.inj hr
    exact xxm_37 sw hf
  | 38, _, _, hf, hr => by
    obtain rfl : 51 = nt := Option.some.inj hr
    exact xxm_38 sw hf
  | 39, _, _, hf, hr => by
    obtain rfl : 52 = nt := Option.some.inj hr
    exact xxm_39 sw hf
  | 40, _, _, hf, hr => by
    obtain rfl : 52 = nt := Option.some.inj hr
    exact xxm_40 sw hf
  | 41, _, _, hf, hr => by
    obtain rfl : 52 = nt := Option.some.inj hr
    exact xxm_41 sw hf
  | 42, _, _, hf, hr => by
    obtain rfl : 52 = nt := Option.some.inj hr
    exact xxm_42 sw hf
  | 43, _, _, hf, hr => by
    obtain rfl : 53 = nt := Option.some.inj hr
    exact xxm_43 sw hf
  | 44, _, _, hf, hr => by
    obtain rfl : 54 = nt := Option.some.inj hr
    exact xxm_44 sw hf
  | 45, _, _, hf, hr => by
    obtain rfl : 54 = nt := Option.some.inj hr
    exact xxm_45 sw hf
  | 46, _, _, hf, hr => by
    obtain rfl : 54 = nt := Option.some.inj hr
    exact xxm_46 sw hf
  | 47, _, _, hf, hr => by
    obtain rfl : 55 = nt := Option.some.inj hr
    exact xxm_47 sw hf
  | 48, _, _, hf, hr => by
    obtain rfl : 55 = nt := Option.some.inj hr
    exact xxm_48 sw hf
  | 49, _, _, hf, hr => by
    obtain rfl : 55 = nt := Option.some.inj hr
    exact xxm_49 sw hf
  | 50, _, _, hf, hr => by
    obtain rfl : 56 = nt := Option.some.inj hr
    exact xxm_50 sw hf
  | 51, _, _, hf, hr => by
    obtain rfl : 56 = nt := Option.some.inj hr
    exact xxm_51 sw hf
  | 52, _, _, hf, hr => by
    obtain rfl : 57 = nt := Option.some.inj hr
    exact xxm_52 sw hf
  | 53, _, _, hf, hr => by
    obtain rfl : 57 = nt := Option.some.inj hr
    exact xxm_53 sw hf
  | 54, _, _, hf, hr => by
    obtain rfl : 58 = nt := Option.some.inj hr
    exact xxm_54 sw hf
  | 55, _, _, hf, hr => by
    obtain rfl : 58 = nt := Option.some.inj hr
    exact xxm_55 sw hf
  | 56, _, _, hf, hr => by
    obtain rfl : 58 = nt := Option.some.inj hr
    exact xxm_56 sw hf
  | 57, _, _, hf, hr => by
    obtain rfl : 59 = nt := Option.some.inj hr
    exact xxm_57 sw hf
  | 58, _, _, hf, hr => by
    obtain rfl : 59 = nt := Option.some.inj hr
    exact xxm_58 sw hf
  | 59, _, _, hf, hr => by
    obtain rfl : 59 = nt := Option.some.inj hr
    exact xxm_59 sw hf
  | 60, _, _, hf, hr => by
    obtain rfl : 59 = nt := Option.some.inj hr
    exact xxm_60 sw hf
  | 61, _, _, hf, hr => by
    obtain rfl : 59 = nt := Option.some.inj hr
    exact xxm_61 sw hf
  | 62, _, _, hf, hr => by
    obtain rfl : 59 = nt := Option.some.inj hr
    exact xxm_62 sw hf
  | 63, _, _, hf, hr => by
    obtain rfl : 60 = nt := Option.some.inj hr
    exact xxm_63 sw hf
  | 64, _, _, hf, hr => by
    obtain rfl : 60 = nt := Option.some.inj hr
    exact xxm_64 sw hf
  | 65, _, _, hf, hr => by
    obtain rfl : 60 = nt := Option.some.inj hr
    exact xxm_65 sw hf
  | 66, _, _, hf, hr => by
    obtain rfl : 60 = nt := Option.some.inj hr
    exact xxm_66 sw hf
  | 67, _, _, hf, hr => by
    obtain rfl : 61 = nt := Option.some.inj hr
    exact xxm_67 sw hf
  | 68, _, _, hf, hr => by
    obtain rfl : 62 = nt := Option.some.inj hr
    exact xxm_68 sw hf
  | 69, _, _, hf, hr => by
    obtain rfl : 62 = nt := Option.some.inj hr
    exact xxm_69 sw hf
  | 70, _, _, hf, hr => by
    obtain rfl : 62 = nt := Option.some.inj hr
    exact xxm_70 sw hf
  | 71, _, _, hf, hr => by
    obtain rfl : 62 = nt := Option.some.inj hr
    exact xxm_71 sw hf
  | 72, _, _, hf, hr => by
    obtain rfl : 63 = nt := Option.some.inj hr
    exact xxm_72 sw hf
  | 73, _, _, hf, hr => by
    obtain rfl : 63 = nt := Option.some.inj hr
    exact xxm_73 sw hf
  | 74, _, _, hf, hr => by
    obtain rfl : 64 = nt := Option.some.inj hr
    exact xxm_74 sw hf
  | 75, _, _, hf, hr => by
    obtain rfl : 64 = nt := Option.some.inj hr
    exact xxm_75 sw hf
  | 76, _, _, hf, hr => by
    obtain rfl : 64 = nt := Option.some.inj hr
    exact xxm_76 sw hf
  | r + 77, _, _, _, hr => by
    have h : xxTables.r1.length = 77 := rfl
    rw [List.getElem?_eq_none (by omega)] at hr
    cases hr

/-! ### the parser -/

/-- a value with its blocks -/
abbrev PM := PVal × MVal

/-- what is on the stack, described by `FitsImg` -/
abbrev FitM : Nat → Nat → List Tok → Nat → PM → Prop := fun _ X ts _ w => FitsImg X w.1 w.2 ∧ (X = 0 → ts = [])

theorem chain_fits {p q la : Nat} {Xs : List Nat} {ts : List Tok} {us : List PM} (h : Chain Tok.num xxCert FitM p Xs ts la us q) :
    List.Forall₂ (fun X (w : PM) => FitsImg X w.1 w.2) Xs us := by
  induction Xs generalizing p ts us with
  | nil => obtain ⟨_, rfl, _⟩ := h; exact .nil
  | cons X Xs ih =>
    obtain ⟨v, vs, t1, t2, s, rfl, rfl, hm, _, _, hc⟩ := h
    exact .cons hm.1 (ih hc)

def stackBlocks (stk : List (Nat × PM)) : List Nat := stk.flatMap fun p => p.2.2.blocks

theorem tokMem_does (t : Tok) : Gives (tokMem t) [] (fun m => FitsImg t.num t.val m) := by
  cases t
  case string s => exact Does.malloc fun b => Gives.pure (.refl _) ⟨_, _, rfl, rfl⟩
  case ident s => exact Does.malloc fun b => Gives.pure (.refl _) ⟨_, _, rfl, rfl⟩
  case int n => exact Gives.pure (.refl _) ⟨⟨_, rfl⟩, rfl⟩
  case float n => exact Gives.pure (.refl _) ⟨⟨_, rfl⟩, rfl⟩
  all_goals exact Gives.pure (.refl _) ⟨rfl, rfl⟩

theorem tokVal_does (t : Tok) :
    Does (tokValMem t) [] (fun w M => w.1 = t.val ∧ M.Perm w.2.blocks ∧ FitsImg t.num w.1 w.2) := by
  refine Does.seq (L' := []) (by simp) (tokMem_does t) fun m M hM => Does.pure (L' := M) (by simp) ⟨rfl, hM.1, hM.2⟩

theorem action_does {nt r : Nat} {us : List PM} (h0 : r ≠ 0) (h1 : r ≠ 1)
    (hf : List.Forall₂ (fun X (w : PM) => FitsImg X w.1 w.2) (xxCert.rule r) us) (hr : xxTables.r1[r]? = some nt) :
    ∃ v, xxAction r (us.map Prod.fst) = .ok v ∧
      Does (xxActionMem r us) (us.flatMap fun w => w.2.blocks) (fun w M => w.1 = v ∧ M.Perm w.2.blocks ∧ FitsImg nt w.1 w.2) := by
  obtain ⟨v, hv, hd⟩ := xxm_rules nt us (swapsOperands (us.map Prod.fst)) r h0 h1 hf hr
  refine ⟨v, hv, ?_⟩
  simp only [xxActionMem, hv]
  refine Does.seq (P := []) (L' := us.flatMap fun w => w.2.blocks) (Q' := fun a M => a = v ∧ M = []) (by simp)
    (Does.pure (L' := []) (.refl _) ⟨rfl, rfl⟩) ?_
  rintro _ _ ⟨rfl, rfl⟩
  refine Does.seq (P := us.flatMap fun w => w.2.blocks) (L' := []) (by simp) hd fun m M hM => ?_
  exact Does.pure (L' := M) (by simp) ⟨rfl, hM.1, hM.2⟩

/-- forgetting the blocks -/
def plainStack (stk : List (Nat × PM)) : List (Nat × PVal) := stk.map fun p => (p.1, p.2.1)

theorem topState_plain (stk : List (Nat × PM)) : topState (plainStack stk) = topState stk := by
  cases stk with
  | nil => rfl
  | cons a stk => rfl

theorem lrMem_succ {τ W : Type} {T : LRTables} {num : τ → Nat} {tok : τ → Mem W} {eofVal : W} {action : Nat → List W → Mem W}
    (fuel : Nat) (stack : List (Nat × W)) (input : List τ) :
    lrMem T num tok eofVal action (fuel + 1) stack input =
      if T.depth ≤ stack.length + 1 then pure none
      else if topState stack = T.final then
        match stack with
        | [_, (_, v)] => pure (some v)
        | _ => .fault .ub
      else
        match T.act (topState stack) (nextNum num input) with
        | .bad => .fault .ub
        | .error =>
          match input with
          | [] => pure none
          | t :: _ => tok t >>= fun _ => pure none
        | .shift s =>
          match input with
          | [] => lrMem T num tok eofVal action fuel ((s, eofVal) :: stack) []
          | t :: rest => tok t >>= fun v => lrMem T num tok eofVal action fuel ((s, v) :: stack) rest
        | .reduce r =>
          match T.r1[r]?, T.r2[r]? with
          | some nt, some len =>
            if stack.length < len then .fault .ub
            else action r ((stack.take len).reverse.map Prod.snd) >>= fun v =>
              match T.goto (topState (stack.drop len)) nt with
              | none => .fault .ub
              | some s => lrMem T num tok eofVal action fuel ((s, v) :: stack.drop len) input
          | _, _ => .fault .ub := rfl

/-- what the run with blocks gives, when the run without gives `r` -/
def Parsed (r : Except Fault (Option PVal)) (x : Option PM) (M : List Nat) : Prop :=
  (r = .ok none ∧ x = none) ∨
    ∃ e i, r = .ok (some (.node e)) ∧ x = some (.node e, .node i) ∧ i.blocks.length = exprBlocks e ∧ M.Perm i.blocks

theorem lrMem_sound (fuel : Nat) :
    ∀ (stk : List (Nat × PM)) (input ws : List Tok),
      Path Tok.num xxCert FitM stk ws (nextNum Tok.num input) → (topState stk = xxTables.final → input = []) →
      stackWeight xxCert stk + 11 * input.length + (if topState stk = xxTables.final then 0 else 11) < fuel →
      Does (lrMem xxTables Tok.num tokValMem (.token, .plain) xxActionMem fuel stk input) (stackBlocks stk)
        (Parsed (lrRun xxTables Tok.num Tok.val .token xxAction fuel (plainStack stk) input)) := by
  have hC := xxCert_ok
  induction fuel with
  | zero => intro stk input ws _ _ hf; omega
  | succ fuel ih =>
    intro stk input ws hp hfin hfuel
    have htop := path_top_lt hp hC.zero.1
    have hst := hC.states _ htop
    rw [lrRun_succ, lrMem_succ, topState_plain]
    rw [show (plainStack stk).length = stk.length by simp [plainStack]]
    by_cases hd : xxTables.depth ≤ stk.length + 1
    · rw [if_pos hd, if_pos hd]; exact Does.pure (.refl _) (Or.inl ⟨rfl, rfl⟩)
    · rw [if_neg hd, if_neg hd]
      by_cases hf : topState stk = xxTables.final
      · rw [if_pos hf, if_pos hf]
        have hb := hC.final
        rw [← hf] at hb
        obtain ⟨ws', ts, rfl, hlen, hp1, hc, hk⟩ := path_pop hp hb (by
          intro X hX; simp only [List.mem_cons, List.not_mem_nil, or_false] at hX
          rcases hX with rfl | rfl
          · exact hC.zero.2.1
          · exact hC.zero.2.2.1)
        simp only [List.length_cons, List.length_nil, Nat.zero_add, Nat.reduceAdd] at *
        match stk, hlen, hp1, hc, hk with
        | (s1, v1) :: (s2, v2) :: rest, _, hp1, hc, hk =>
          simp only [List.drop_succ_cons, List.drop_zero, beq_iff_eq] at hp1 hk hc
          cases rest with
          | cons a rest =>
            obtain ⟨s3, v3⟩ := a
            simp only [topState] at hk
            subst hk
            obtain ⟨_, _, _, _, he, _, hp2⟩ := hp1
            exact absurd he (hC.bottomPre _ (path_top_lt hp2 hC.zero.1))
          | nil =>
            simp only [List.take_succ_cons, List.take_zero, List.reverse_cons, List.reverse_nil, List.nil_append, List.cons_append,
              List.map_cons, List.map_nil, Chain, topState] at hc
            obtain ⟨u, us, t1, t2, s, he, rfl, hm, _, _, u2, us2, t3, t4, s', he2, rfl, hm2, _, _, rfl, _, _⟩ := hc
            cases he
            cases he2
            obtain ⟨p2, m2⟩ := v2
            obtain ⟨p1, m1⟩ := v1
            obtain ⟨e, i, rfl, rfl, hn⟩ : ∃ e i, p2 = PVal.node e ∧ m2 = MVal.node i ∧ i.blocks.length = exprBlocks e := hm.1
            obtain ⟨rfl, rfl⟩ : p1 = PVal.token ∧ m1 = MVal.plain := hm2.1
            exact Does.pure (.refl _) (Or.inr ⟨e, i, rfl, rfl, hn, by simp [stackBlocks, MVal.blocks]⟩)
      · rw [if_neg hf, if_neg hf]
        rw [if_neg hf] at hfuel
        simp only [LRCert.stateOK, Bool.or_eq_true, beq_iff_eq, hf, false_or, Bool.and_eq_true, List.all_eq_true, List.mem_range] at hst
        have hla : nextNum Tok.num input < xxTables.ntokens := by
          cases input with
          | nil => exact xx_closed.pos
          | cons t _ => exact xx_closed.num_lt t
        have hact := hst.2 _ hla
        simp only [LRCert.actOK] at hact
        have hw : ∀ p ∈ stk, 2 ≤ xxCert.weight p.1 := fun p hp' => hC.weights _ (path_lt hp p hp')
        cases ha : xxTables.act (topState stk) (nextNum Tok.num input) with
        | bad => rw [ha] at hact; simp at hact
        | error =>
          cases input with
          | nil => exact Does.pure (.refl _) (Or.inl ⟨rfl, rfl⟩)
          | cons t rest =>
            exact Does.seq (L' := stackBlocks stk) (by simp) (tokVal_does t) (fun _ _ _ => Does.pure (.refl _) (Or.inl ⟨rfl, rfl⟩))
        | shift s =>
          rw [ha] at hact
          simp only [Bool.and_eq_true, decide_eq_true_eq, beq_iff_eq] at hact
          obtain ⟨⟨⟨⟨he, hsym⟩, hwt⟩, hz⟩, hlt⟩ := hact
          cases input with
          | nil =>
            have hs : s = xxTables.final := by simpa [nextNum] using hz
            have hp' : Path Tok.num xxCert FitM ((s, (PVal.token, MVal.plain)) :: stk) ws (nextNum Tok.num ([] : List Tok)) := by
              refine ⟨ws, [], by simp, ?_, he, hlt, hp⟩
              rw [hsym]; exact ⟨⟨rfl, rfl⟩, fun _ => rfl⟩
            exact (ih _ _ _ hp' (fun _ => rfl) (by
              simp only [stackWeight, List.map_cons, List.sum_cons, topState, hs, if_true, List.length_nil] at hfuel hwt ⊢; omega)).perm
                (by simp [stackBlocks, MVal.blocks])
          | cons t rest =>
            refine Does.seq (L' := stackBlocks stk) (by simp) (tokVal_does t) fun w M hw' => ?_
            obtain ⟨hv, hM, hft⟩ := hw'
            have hs : s ≠ xxTables.final := by
              intro h
              simp only [h, beq_self_eq_true, beq_iff_eq, nextNum] at hz
              exact xx_closed.num_pos t hz
            have hp' : Path Tok.num xxCert FitM ((s, w) :: stk) (ws ++ [t]) (nextNum Tok.num rest) := by
              refine ⟨ws, [t], rfl, ?_, he, hlt, hp⟩
              rw [hsym]; exact ⟨hft, fun h0 => absurd h0 (xx_closed.num_pos t)⟩
            have key := ih _ _ _ hp' (fun h => absurd h hs) (by
              simp only [stackWeight, List.map_cons, List.sum_cons, topState, hs, if_false, List.length_cons] at hfuel hwt ⊢; omega)
            simp only [plainStack, List.map_cons, hv] at key
            refine key.perm ?_
            simp only [stackBlocks, List.flatMap_cons]
            exact hM.append_right _
        | reduce r =>
          rw [ha, Bool.and_eq_true] at hact
          have hred : xxCert.reduceOK xxTables (topState stk) r = true := by
            have h2 := hact.2
            rw [Bool.or_eq_true, beq_iff_eq] at h2
            rcases h2 with h | h
            · rcases hst.1 with h' | h'
              · rw [h'] at h
                rw [← h] at hact
                simp at hact
              · rw [h] at h'; exact h'
            · exact h
          simp only [LRCert.reduceOK] at hred
          cases h1 : xxTables.r1[r]? with
          | none => rw [h1] at hred; simp at hred
          | some nt =>
          cases h2 : xxTables.r2[r]? with
          | none => rw [h1, h2] at hred; simp at hred
          | some len =>
            rw [h1, h2] at hred
            simp only [Bool.and_eq_true, beq_iff_eq, bne_iff_ne, ne_eq] at hred
            obtain ⟨⟨hlen, hne⟩, hb⟩ := hred
            obtain ⟨ws', ts, rfl, hl, hp1, hc, hk⟩ := path_pop hp hb (by
              intro X hX
              apply hC.bottom
              simp only [List.mem_reverse, LRCert.rule, List.getD_eq_getElem?_getD] at hX
              cases hr : xxCert.rhs[r]? with
              | none => simp [hr] at hX
              | some xs =>
                simp only [hr, Option.getD_some] at hX
                exact List.mem_flatten.mpr ⟨xs, List.mem_of_getElem? hr, hX⟩)
            rw [List.length_reverse, hlen] at hl hp1 hc hk
            rw [List.reverse_reverse] at hc
            have hr0 : r ≠ 0 := by simpa using hact.1
            have hr1 : r ≠ 1 := by
              rintro rfl
              obtain ⟨v0, w0, t0, r0, q0, _, rfl, m0, e0, y0, v1, w1, t1, r1, q1, _, rfl, m1, e1, y1, _, _, hq⟩ := hc
              exact hf (hq.trans (xx_after_eof y1))
            obtain ⟨v, hv, hdo⟩ := action_does hr0 hr1 (chain_fits hc) h1
            have hsplit : (stackBlocks stk).Perm
                ((((stk.take len).reverse.map Prod.snd).flatMap fun w => w.2.blocks) ++ stackBlocks (stk.drop len)) := by
              conv_lhs => rw [← List.take_append_drop len stk]
              simp only [stackBlocks, List.flatMap_append, List.flatMap_map]
              exact List.Perm.append_right _ (List.Perm.flatMap_right _ (List.reverse_perm _).symm)
            have hpl : ((plainStack stk).take len).reverse.map Prod.snd = ((stk.take len).reverse.map Prod.snd).map Prod.fst := by
              simp [plainStack, ← List.map_take, ← List.map_reverse, Function.comp_def]
            simp only [h1, h2, if_neg (Nat.not_lt.mpr hl), hpl, hv]
            have hdr : (plainStack stk).drop len = plainStack (stk.drop len) := by simp [plainStack, List.map_drop]
            simp only [hdr, topState_plain]
            refine Does.seq hsplit hdo fun w M hw' => ?_
            obtain ⟨hwv, hM, hft⟩ := hw'
            split at hk
            · simp at hk
            · rename_i g hg
              simp only [Bool.and_eq_true, decide_eq_true_eq, beq_iff_eq, bne_iff_ne, ne_eq] at hk
              obtain ⟨⟨⟨⟨he, hsym⟩, hgf⟩, hglt⟩, hgw⟩ := hk
              have hp' : Path Tok.num xxCert FitM ((g, w) :: stk.drop len) (ws' ++ ts) (nextNum Tok.num input) :=
                ⟨ws', ts, rfl, by rw [hsym]; exact ⟨hft, by
                  intro h0; subst h0
                  exact absurd (xx_after_eof hsym) (by intro h; exact hgf h)⟩, he, hglt, hp1⟩
              have hsp := stackWeight_split (Nat.pos_of_ne_zero hne) hl hw
              have key := ih _ _ _ hp' (fun h => absurd h hgf) (by
                simp only [stackWeight, List.map_cons, List.sum_cons] at hfuel hsp ⊢
                rw [if_neg (show ¬ topState ((g, w) :: stk.drop len) = xxTables.final from hgf)]
                omega)
              simp only [plainStack, List.map_cons, hwv] at key
              simp only [hg]
              refine key.perm ?_
              simp only [stackBlocks, List.flatMap_cons]
              exact hM.append_right _

/-! ### `parse` -/

theorem parseMem_does (text : Str) : Does (parseMem text) [] (fun x M => (parseText text = .ok none ∧ x = none) ∨
    ∃ e i, parseText text = .ok (some e) ∧ x = some (e, i) ∧ i.blocks.length = exprBlocks e ∧ M.Perm i.blocks) := by
  have key := lrMem_sound (11 * ((lexExpr text).length + 1) + 2) [] (lexExpr text) [] rfl
    (fun h0 => absurd h0 (by decide)) (by
      simp only [stackWeight, List.map_nil, List.sum_nil]; split <;> omega)
  simp only [plainStack, List.map_nil, stackBlocks, List.flatMap_nil] at key
  unfold parseMem
  refine Does.seq (L' := []) (by simp) key fun x M h => ?_
  rcases h with ⟨e1, rfl⟩ | ⟨e, i, e1, rfl, hn, hM⟩
  · exact Does.pure (.refl _) (Or.inl ⟨by simp only [parseText, parseTokens, e1], rfl⟩)
  · exact Does.pure (.refl _) (Or.inr ⟨e, i, by simp only [parseText, parseTokens, e1], rfl, hn, by simpa using hM⟩)

theorem parseMem_sound (text : Str) (h : Heap) (F : List Nat) (hh : Holds h F) :
    (parseText text = .ok none ∧ ∃ h' L, parseMem text h = .ok (none, h') ∧ Holds h' (L ++ F)) ∨
    ∃ e i h', parseText text = .ok (some e) ∧ parseMem text h = .ok (some (e, i), h') ∧ i.blocks.length = exprBlocks e ∧
      Holds h' (i.blocks ++ F) := by
  obtain ⟨x, h', M, e0, q, hh'⟩ := (parseMem_does text).run h F hh
  rcases q with ⟨e1, rfl⟩ | ⟨e, i, e1, rfl, hn, hM⟩
  · exact Or.inl ⟨e1, h', M, e0, hh'⟩
  · exact Or.inr ⟨e, i, h', e1, e0, hn, hh'.perm (hM.append_right F)⟩

end BeTree
