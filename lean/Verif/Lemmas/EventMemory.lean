import Verif.Spec.EventMemory
import Verif.Lemmas.MemWorld
import Verif.Lemmas.ZzSound
/-
The event parser as a program on the heap.
-/
namespace BeTree
open Spec

def EMVal.blocks : EMVal → List Nat
  | .plain => []
  | .one b => [b]
  | .val v => v.blocks
  | .cap b ns => [b, ns]
  | .var none => []
  | .var (some v) => v.blocks
  | .event e => e.blocks

/-- a value and its blocks -/
def FitsVal : Value → ValImg → Prop
  | .bool _, .plain => True
  | .int _, .plain => True
  | .float _, .plain => True
  | .intEnum _, .plain => True
  | .string _, .str _ => True
  | .intList l, .ints _ a => a.isSome = !l.isEmpty
  | .strList l, .strs _ a ss => a.isSome = !l.isEmpty ∧ ss.length = l.length
  | .segments l, .segs _ a ss => a.isSome = !l.isEmpty ∧ ss.length = l.length
  | .freq l, .caps _ a cs => a.isSome = !l.isEmpty ∧ cs.length = l.length
  | _, _ => False

def FitsVar : Option EventVar → Option VarImg → Prop
  | none, none => True
  | some v, some i => FitsVal v.value i.value
  | _, _ => False

def FitsEvent (l : List EventVar) (e : EventImg) : Prop :=
  e.array.isSome = !l.isEmpty ∧ List.Forall₂ (fun (v : EventVar) (i : VarImg) => FitsVal v.value i.value) l e.vars

/-- a semantic value and its blocks, by the symbol of the grammar they belong to -/
def FitsEv (X : Nat) (v : EPVal) (m : EMVal) : Prop :=
  match X with
  | 17 | 18 => ∃ l e, v = EPVal.event l ∧ m = EMVal.event e ∧ FitsEvent l e
  | 19 => ∃ o p, v = EPVal.variable o ∧ m = EMVal.var p ∧ FitsVar o p
  | 20 => ∃ x i, v = EPVal.value x ∧ m = EMVal.val i ∧ FitsVal x i
  | 21 => (∃ b, v = EPVal.bool b) ∧ m = EMVal.plain
  | 13 | 22 => (∃ n, v = EPVal.int n) ∧ m = EMVal.plain
  | 14 | 23 => (∃ n, v = EPVal.float n) ∧ m = EMVal.plain
  | 15 => ∃ s b, v = EPVal.string s ∧ m = EMVal.one b
  | 24 => ∃ s b, v = EPVal.strVal s ∧ m = EMVal.one b
  | 25 => ∃ h, v = EPVal.ints [] ∧ m = EMVal.val (.ints h none)
  | 26 | 27 => ∃ l h a, v = EPVal.ints l ∧ m = EMVal.val (.ints h (some a)) ∧ l ≠ []
  | 28 | 29 => ∃ l h a ss, v = EPVal.strs l ∧ m = EMVal.val (.strs h (some a) ss) ∧ l ≠ [] ∧ ss.length = l.length
  | 30 | 31 => ∃ l h a ss, v = EPVal.segs l ∧ m = EMVal.val (.segs h (some a) ss) ∧ l ≠ [] ∧ ss.length = l.length
  | 33 | 34 => ∃ l h a cs, v = EPVal.caps l ∧ m = EMVal.val (.caps h (some a) cs) ∧ l ≠ [] ∧ cs.length = l.length
  | 32 => ∃ s b, v = EPVal.seg s ∧ m = EMVal.one b
  | 35 => ∃ c b ns, v = EPVal.cap c ∧ m = EMVal.cap b ns
  | _ => v = .token ∧ m = .plain

/-- the program leaves the blocks of its result, which is as described -/
abbrev EGives (p : Mem EMVal) (L : List Nat) (P : EMVal → Prop) : Prop := Does p L (fun m M => M.Perm m.blocks ∧ P m)

theorem EGives.pure {m : EMVal} {L : List Nat} {P : EMVal → Prop} (h : L.Perm m.blocks) (hP : P m) : EGives (Pure.pure m) L P :=
  Does.pure h ⟨.refl _, hP⟩

theorem isSome_ne {α : Type} {l : List α} {a : Nat} (h : l ≠ []) : (some a).isSome = !l.isEmpty := by
  cases l with
  | nil => exact absurd rfl h
  | cons x l => rfl

theorem fitsEvent_nil (e : Nat) : FitsEvent [] ⟨e, none, []⟩ := ⟨rfl, .nil⟩

theorem addVariable_does {o : Option EventVar} {p : Option VarImg} {l : List EventVar} {e : EventImg} (hv : FitsVar o p) (he : FitsEvent l e) :
    Does (addVariableMem p e) ((EMVal.var p).blocks ++ e.blocks) (fun e' M => M.Perm e'.blocks ∧ FitsEvent (addVariable o l) e') := by
  match o, p, hv with
  | none, none, _ => exact Does.pure (.refl _) ⟨.refl _, he⟩
  | some v, some i, hv =>
    obtain ⟨b, a, vars⟩ := e
    have hF : FitsEvent (addVariable (some v) l) ⟨b, some 0, vars ++ [i]⟩ := by
      refine ⟨?_, ?_⟩
      · cases l <;> rfl
      · exact List.rel_append he.2 (.cons hv .nil)
    cases a with
    | none =>
      refine Does.malloc fun c => Does.pure (.refl _) ⟨?_, hF.1, hF.2⟩
      simp only [EMVal.blocks, EventImg.blocks, Option.toList, List.flatMap_append, List.flatMap_cons, List.flatMap_nil]; blocks
    | some a =>
      refine Does.realloc (L' := i.blocks ++ b :: vars.flatMap VarImg.blocks) ?_ fun c => Does.pure (.refl _) ⟨?_, hF.1, hF.2⟩
      · simp only [EMVal.blocks, EventImg.blocks, Option.toList]; blocks
      · simp only [EventImg.blocks, Option.toList, List.flatMap_append, List.flatMap_cons, List.flatMap_nil]; blocks

set_option linter.unusedSimpArgs false

theorem zzm_2 {us : List (EPVal × EMVal)} (hf : List.Forall₂ (fun X (w : EPVal × EMVal) => FitsEv X w.1 w.2) [3, 4] us) :
    ∃ v, zzAction 2 (us.map Prod.fst) = .ok v ∧
      EGives (zzMem 2 (us.map Prod.snd)) (us.flatMap fun w => w.2.blocks) (fun m => FitsEv 17 v m) := by
  simp only [List.forall₂_cons_left_iff, List.forall₂_nil_left_iff] at hf
  obtain ⟨⟨v0, m0⟩, _, f0, ⟨⟨v1, m1⟩, _, f1, rfl, rfl⟩, rfl⟩ := hf
  obtain ⟨rfl, rfl⟩ : v0 = EPVal.token ∧ m0 = EMVal.plain := f0
  obtain ⟨rfl, rfl⟩ : v1 = EPVal.token ∧ m1 = EMVal.plain := f1
  refine ⟨_, rfl, ?_⟩
  exact Does.malloc fun e => EGives.pure (by simp only [List.flatMap_cons, List.flatMap_nil, EMVal.blocks, ValImg.blocks, VarImg.blocks, EventImg.blocks, Option.toList, List.map_cons, List.map_nil, List.map_append]; blocks) ⟨_, _, rfl, rfl, fitsEvent_nil e⟩

theorem zzm_3 {us : List (EPVal × EMVal)} (hf : List.Forall₂ (fun X (w : EPVal × EMVal) => FitsEv X w.1 w.2) [3, 18, 4] us) :
    ∃ v, zzAction 3 (us.map Prod.fst) = .ok v ∧
      EGives (zzMem 3 (us.map Prod.snd)) (us.flatMap fun w => w.2.blocks) (fun m => FitsEv 17 v m) := by
  simp only [List.forall₂_cons_left_iff, List.forall₂_nil_left_iff] at hf
  obtain ⟨⟨v0, m0⟩, _, f0, ⟨⟨v1, m1⟩, _, f1, ⟨⟨v2, m2⟩, _, f2, rfl, rfl⟩, rfl⟩, rfl⟩ := hf
  obtain ⟨rfl, rfl⟩ : v0 = EPVal.token ∧ m0 = EMVal.plain := f0
  obtain ⟨l1, e1, rfl, rfl, n1⟩ : ∃ l e, v1 = EPVal.event l ∧ m1 = EMVal.event e ∧ FitsEvent l e := f1
  obtain ⟨rfl, rfl⟩ : v2 = EPVal.token ∧ m2 = EMVal.plain := f2
  refine ⟨_, rfl, ?_⟩
  exact EGives.pure (by simp only [List.flatMap_cons, List.flatMap_nil, EMVal.blocks, ValImg.blocks, VarImg.blocks, EventImg.blocks, Option.toList, List.map_cons, List.map_nil, List.map_append]; blocks) ⟨_, _, rfl, rfl, n1⟩

theorem zzm_4 {us : List (EPVal × EMVal)} (hf : List.Forall₂ (fun X (w : EPVal × EMVal) => FitsEv X w.1 w.2) [19] us) :
    ∃ v, zzAction 4 (us.map Prod.fst) = .ok v ∧
      EGives (zzMem 4 (us.map Prod.snd)) (us.flatMap fun w => w.2.blocks) (fun m => FitsEv 18 v m) := by
  simp only [List.forall₂_cons_left_iff, List.forall₂_nil_left_iff] at hf
  obtain ⟨⟨v0, m0⟩, _, f0, rfl, rfl⟩ := hf
  obtain ⟨o0, p0, rfl, rfl, n0⟩ : ∃ o p, v0 = EPVal.variable o ∧ m0 = EMVal.var p ∧ FitsVar o p := f0
  refine ⟨_, rfl, ?_⟩
  refine Does.malloc fun e => Does.seq (L' := []) (by simp only [List.flatMap_cons, List.flatMap_nil, EMVal.blocks, ValImg.blocks, VarImg.blocks, EventImg.blocks, Option.toList, List.map_cons, List.map_nil, List.map_append]; blocks) (addVariable_does n0 (fitsEvent_nil e)) ?_
  rintro e' M' ⟨hM, hf⟩
  exact EGives.pure (by rw [List.append_nil]; exact hM) ⟨_, _, rfl, rfl, hf⟩

theorem zzm_5 {us : List (EPVal × EMVal)} (hf : List.Forall₂ (fun X (w : EPVal × EMVal) => FitsEv X w.1 w.2) [18, 7, 19] us) :
    ∃ v, zzAction 5 (us.map Prod.fst) = .ok v ∧
      EGives (zzMem 5 (us.map Prod.snd)) (us.flatMap fun w => w.2.blocks) (fun m => FitsEv 18 v m) := by
  simp only [List.forall₂_cons_left_iff, List.forall₂_nil_left_iff] at hf
  obtain ⟨⟨v0, m0⟩, _, f0, ⟨⟨v1, m1⟩, _, f1, ⟨⟨v2, m2⟩, _, f2, rfl, rfl⟩, rfl⟩, rfl⟩ := hf
  obtain ⟨l0, e0, rfl, rfl, n0⟩ : ∃ l e, v0 = EPVal.event l ∧ m0 = EMVal.event e ∧ FitsEvent l e := f0
  obtain ⟨rfl, rfl⟩ : v1 = EPVal.token ∧ m1 = EMVal.plain := f1
  obtain ⟨o2, p2, rfl, rfl, n2⟩ : ∃ o p, v2 = EPVal.variable o ∧ m2 = EMVal.var p ∧ FitsVar o p := f2
  refine ⟨_, rfl, ?_⟩
  refine Does.seq (L' := []) (by simp only [List.flatMap_cons, List.flatMap_nil, EMVal.blocks, ValImg.blocks, VarImg.blocks, EventImg.blocks, Option.toList, List.map_cons, List.map_nil, List.map_append]; blocks) (addVariable_does n2 n0) ?_
  rintro e' M' ⟨hM, hf⟩
  exact EGives.pure (by rw [List.append_nil]; exact hM) ⟨_, _, rfl, rfl, hf⟩

theorem zzm_6 {us : List (EPVal × EMVal)} (hf : List.Forall₂ (fun X (w : EPVal × EMVal) => FitsEv X w.1 w.2) [15, 8, 20] us) :
    ∃ v, zzAction 6 (us.map Prod.fst) = .ok v ∧
      EGives (zzMem 6 (us.map Prod.snd)) (us.flatMap fun w => w.2.blocks) (fun m => FitsEv 19 v m) := by
  simp only [List.forall₂_cons_left_iff, List.forall₂_nil_left_iff] at hf
  obtain ⟨⟨v0, m0⟩, _, f0, ⟨⟨v1, m1⟩, _, f1, ⟨⟨v2, m2⟩, _, f2, rfl, rfl⟩, rfl⟩, rfl⟩ := hf
  obtain ⟨x0, b0, rfl, rfl⟩ : ∃ s b, v0 = EPVal.string s ∧ m0 = EMVal.one b := f0
  obtain ⟨rfl, rfl⟩ : v1 = EPVal.token ∧ m1 = EMVal.plain := f1
  obtain ⟨x2, i2, rfl, rfl, n2⟩ : ∃ x i, v2 = EPVal.value x ∧ m2 = EMVal.val i ∧ FitsVal x i := f2
  refine ⟨_, rfl, ?_⟩
  exact Does.malloc fun p => Does.malloc fun a => Does.free (L' := a :: p :: i2.blocks) (by simp only [List.flatMap_cons, List.flatMap_nil, EMVal.blocks, ValImg.blocks, VarImg.blocks, EventImg.blocks, Option.toList, List.map_cons, List.map_nil, List.map_append]; blocks) (EGives.pure (by simp only [List.flatMap_cons, List.flatMap_nil, EMVal.blocks, ValImg.blocks, VarImg.blocks, EventImg.blocks, Option.toList, List.map_cons, List.map_nil, List.map_append]; blocks) ⟨_, _, rfl, rfl, n2⟩)

theorem zzm_7 {us : List (EPVal × EMVal)} (hf : List.Forall₂ (fun X (w : EPVal × EMVal) => FitsEv X w.1 w.2) [15, 8, 10] us) :
    ∃ v, zzAction 7 (us.map Prod.fst) = .ok v ∧
      EGives (zzMem 7 (us.map Prod.snd)) (us.flatMap fun w => w.2.blocks) (fun m => FitsEv 19 v m) := by
  simp only [List.forall₂_cons_left_iff, List.forall₂_nil_left_iff] at hf
  obtain ⟨⟨v0, m0⟩, _, f0, ⟨⟨v1, m1⟩, _, f1, ⟨⟨v2, m2⟩, _, f2, rfl, rfl⟩, rfl⟩, rfl⟩ := hf
  obtain ⟨x0, b0, rfl, rfl⟩ : ∃ s b, v0 = EPVal.string s ∧ m0 = EMVal.one b := f0
  obtain ⟨rfl, rfl⟩ : v1 = EPVal.token ∧ m1 = EMVal.plain := f1
  obtain ⟨rfl, rfl⟩ : v2 = EPVal.token ∧ m2 = EMVal.plain := f2
  refine ⟨_, rfl, ?_⟩
  exact Does.free (L' := []) (by simp only [List.flatMap_cons, List.flatMap_nil, EMVal.blocks, ValImg.blocks, VarImg.blocks, EventImg.blocks, Option.toList, List.map_cons, List.map_nil, List.map_append]; blocks) (EGives.pure (by simp only [List.flatMap_cons, List.flatMap_nil, EMVal.blocks, ValImg.blocks, VarImg.blocks, EventImg.blocks, Option.toList, List.map_cons, List.map_nil, List.map_append]; blocks) ⟨_, _, rfl, rfl, trivial⟩)

theorem zzm_8 {us : List (EPVal × EMVal)} (hf : List.Forall₂ (fun X (w : EPVal × EMVal) => FitsEv X w.1 w.2) [21] us) :
    ∃ v, zzAction 8 (us.map Prod.fst) = .ok v ∧
      EGives (zzMem 8 (us.map Prod.snd)) (us.flatMap fun w => w.2.blocks) (fun m => FitsEv 20 v m) := by
  simp only [List.forall₂_cons_left_iff, List.forall₂_nil_left_iff] at hf
  obtain ⟨⟨v0, m0⟩, _, f0, rfl, rfl⟩ := hf
  obtain ⟨⟨x0, rfl⟩, rfl⟩ : (∃ b, v0 = EPVal.bool b) ∧ m0 = EMVal.plain := f0
  refine ⟨_, rfl, ?_⟩
  exact EGives.pure (by simp only [List.flatMap_cons, List.flatMap_nil, EMVal.blocks, ValImg.blocks, VarImg.blocks, EventImg.blocks, Option.toList, List.map_cons, List.map_nil, List.map_append]; blocks) ⟨_, _, rfl, rfl, trivial⟩

theorem zzm_9 {us : List (EPVal × EMVal)} (hf : List.Forall₂ (fun X (w : EPVal × EMVal) => FitsEv X w.1 w.2) [22] us) :
    ∃ v, zzAction 9 (us.map Prod.fst) = .ok v ∧
      EGives (zzMem 9 (us.map Prod.snd)) (us.flatMap fun w => w.2.blocks) (fun m => FitsEv 20 v m) := by
  simp only [List.forall₂_cons_left_iff, List.forall₂_nil_left_iff] at hf
  obtain ⟨⟨v0, m0⟩, _, f0, rfl, rfl⟩ := hf
  obtain ⟨⟨x0, rfl⟩, rfl⟩ : (∃ n, v0 = EPVal.int n) ∧ m0 = EMVal.plain := f0
  refine ⟨_, rfl, ?_⟩
  exact EGives.pure (by simp only [List.flatMap_cons, List.flatMap_nil, EMVal.blocks, ValImg.blocks, VarImg.blocks, EventImg.blocks, Option.toList, List.map_cons, List.map_nil, List.map_append]; blocks) ⟨_, _, rfl, rfl, trivial⟩

theorem zzm_10 {us : List (EPVal × EMVal)} (hf : List.Forall₂ (fun X (w : EPVal × EMVal) => FitsEv X w.1 w.2) [23] us) :
    ∃ v, zzAction 10 (us.map Prod.fst) = .ok v ∧
      EGives (zzMem 10 (us.map Prod.snd)) (us.flatMap fun w => w.2.blocks) (fun m => FitsEv 20 v m) := by
  simp only [List.forall₂_cons_left_iff, List.forall₂_nil_left_iff] at hf
  obtain ⟨⟨v0, m0⟩, _, f0, rfl, rfl⟩ := hf
  obtain ⟨⟨x0, rfl⟩, rfl⟩ : (∃ n, v0 = EPVal.float n) ∧ m0 = EMVal.plain := f0
  refine ⟨_, rfl, ?_⟩
  exact EGives.pure (by simp only [List.flatMap_cons, List.flatMap_nil, EMVal.blocks, ValImg.blocks, VarImg.blocks, EventImg.blocks, Option.toList, List.map_cons, List.map_nil, List.map_append]; blocks) ⟨_, _, rfl, rfl, trivial⟩

theorem zzm_11 {us : List (EPVal × EMVal)} (hf : List.Forall₂ (fun X (w : EPVal × EMVal) => FitsEv X w.1 w.2) [24] us) :
    ∃ v, zzAction 11 (us.map Prod.fst) = .ok v ∧
      EGives (zzMem 11 (us.map Prod.snd)) (us.flatMap fun w => w.2.blocks) (fun m => FitsEv 20 v m) := by
  simp only [List.forall₂_cons_left_iff, List.forall₂_nil_left_iff] at hf
  obtain ⟨⟨v0, m0⟩, _, f0, rfl, rfl⟩ := hf
  obtain ⟨x0, b0, rfl, rfl⟩ : ∃ s b, v0 = EPVal.strVal s ∧ m0 = EMVal.one b := f0
  refine ⟨_, rfl, ?_⟩
  exact EGives.pure (by simp only [List.flatMap_cons, List.flatMap_nil, EMVal.blocks, ValImg.blocks, VarImg.blocks, EventImg.blocks, Option.toList, List.map_cons, List.map_nil, List.map_append]; blocks) ⟨_, _, rfl, rfl, trivial⟩

theorem zzm_12 {us : List (EPVal × EMVal)} (hf : List.Forall₂ (fun X (w : EPVal × EMVal) => FitsEv X w.1 w.2) [25] us) :
    ∃ v, zzAction 12 (us.map Prod.fst) = .ok v ∧
      EGives (zzMem 12 (us.map Prod.snd)) (us.flatMap fun w => w.2.blocks) (fun m => FitsEv 20 v m) := by
  simp only [List.forall₂_cons_left_iff, List.forall₂_nil_left_iff] at hf
  obtain ⟨⟨v0, m0⟩, _, f0, rfl, rfl⟩ := hf
  obtain ⟨h0, rfl, rfl⟩ : ∃ h, v0 = EPVal.ints [] ∧ m0 = EMVal.val (.ints h none) := f0
  refine ⟨_, rfl, ?_⟩
  exact EGives.pure (by simp only [List.flatMap_cons, List.flatMap_nil, EMVal.blocks, ValImg.blocks, VarImg.blocks, EventImg.blocks, Option.toList, List.map_cons, List.map_nil, List.map_append]; blocks) ⟨_, _, rfl, rfl, rfl⟩

theorem zzm_13 {us : List (EPVal × EMVal)} (hf : List.Forall₂ (fun X (w : EPVal × EMVal) => FitsEv X w.1 w.2) [26] us) :
    ∃ v, zzAction 13 (us.map Prod.fst) = .ok v ∧
      EGives (zzMem 13 (us.map Prod.snd)) (us.flatMap fun w => w.2.blocks) (fun m => FitsEv 20 v m) := by
  simp only [List.forall₂_cons_left_iff, List.forall₂_nil_left_iff] at hf
  obtain ⟨⟨v0, m0⟩, _, f0, rfl, rfl⟩ := hf
  obtain ⟨l0, h0, a0, rfl, rfl, z0⟩ : ∃ l h a, v0 = EPVal.ints l ∧ m0 = EMVal.val (.ints h (some a)) ∧ l ≠ [] := f0
  refine ⟨_, rfl, ?_⟩
  exact EGives.pure (by simp only [List.flatMap_cons, List.flatMap_nil, EMVal.blocks, ValImg.blocks, VarImg.blocks, EventImg.blocks, Option.toList, List.map_cons, List.map_nil, List.map_append]; blocks) ⟨_, _, rfl, rfl, isSome_ne z0⟩

theorem zzm_14 {us : List (EPVal × EMVal)} (hf : List.Forall₂ (fun X (w : EPVal × EMVal) => FitsEv X w.1 w.2) [28] us) :
    ∃ v, zzAction 14 (us.map Prod.fst) = .ok v ∧
      EGives (zzMem 14 (us.map Prod.snd)) (us.flatMap fun w => w.2.blocks) (fun m => FitsEv 20 v m) := by
  simp only [List.forall₂_cons_left_iff, List.forall₂_nil_left_iff] at hf
  obtain ⟨⟨v0, m0⟩, _, f0, rfl, rfl⟩ := hf
  obtain ⟨l0, h0, a0, s0, rfl, rfl, z0, n0⟩ : ∃ l h a ss, v0 = EPVal.strs l ∧ m0 = EMVal.val (.strs h (some a) ss) ∧ l ≠ [] ∧ ss.length = l.length := f0
  refine ⟨_, rfl, ?_⟩
  exact EGives.pure (by simp only [List.flatMap_cons, List.flatMap_nil, EMVal.blocks, ValImg.blocks, VarImg.blocks, EventImg.blocks, Option.toList, List.map_cons, List.map_nil, List.map_append]; blocks) ⟨_, _, rfl, rfl, isSome_ne z0, n0⟩

theorem zzm_15 {us : List (EPVal × EMVal)} (hf : List.Forall₂ (fun X (w : EPVal × EMVal) => FitsEv X w.1 w.2) [30] us) :
    ∃ v, zzAction 15 (us.map Prod.fst) = .ok v ∧
      EGives (zzMem 15 (us.map Prod.snd)) (us.flatMap fun w => w.2.blocks) (fun m => FitsEv 20 v m) := by
  simp only [List.forall₂_cons_left_iff, List.forall₂_nil_left_iff] at hf
  obtain ⟨⟨v0, m0⟩, _, f0, rfl, rfl⟩ := hf
  obtain ⟨l0, h0, a0, s0, rfl, rfl, z0, n0⟩ : ∃ l h a ss, v0 = EPVal.segs l ∧ m0 = EMVal.val (.segs h (some a) ss) ∧ l ≠ [] ∧ ss.length = l.length := f0
  refine ⟨_, rfl, ?_⟩
  exact EGives.pure (by simp only [List.flatMap_cons, List.flatMap_nil, EMVal.blocks, ValImg.blocks, VarImg.blocks, EventImg.blocks, Option.toList, List.map_cons, List.map_nil, List.map_append]; blocks) ⟨_, _, rfl, rfl, isSome_ne z0, n0⟩

theorem zzm_16 {us : List (EPVal × EMVal)} (hf : List.Forall₂ (fun X (w : EPVal × EMVal) => FitsEv X w.1 w.2) [33] us) :
    ∃ v, zzAction 16 (us.map Prod.fst) = .ok v ∧
      EGives (zzMem 16 (us.map Prod.snd)) (us.flatMap fun w => w.2.blocks) (fun m => FitsEv 20 v m) := by
  simp only [List.forall₂_cons_left_iff, List.forall₂_nil_left_iff] at hf
  obtain ⟨⟨v0, m0⟩, _, f0, rfl, rfl⟩ := hf
  obtain ⟨l0, h0, a0, s0, rfl, rfl, z0, n0⟩ : ∃ l h a cs, v0 = EPVal.caps l ∧ m0 = EMVal.val (.caps h (some a) cs) ∧ l ≠ [] ∧ cs.length = l.length := f0
  refine ⟨_, rfl, ?_⟩
  exact EGives.pure (by simp only [List.flatMap_cons, List.flatMap_nil, EMVal.blocks, ValImg.blocks, VarImg.blocks, EventImg.blocks, Option.toList, List.map_cons, List.map_nil, List.map_append]; blocks) ⟨_, _, rfl, rfl, isSome_ne z0, n0⟩

theorem zzm_17 {us : List (EPVal × EMVal)} (hf : List.Forall₂ (fun X (w : EPVal × EMVal) => FitsEv X w.1 w.2) [11] us) :
    ∃ v, zzAction 17 (us.map Prod.fst) = .ok v ∧
      EGives (zzMem 17 (us.map Prod.snd)) (us.flatMap fun w => w.2.blocks) (fun m => FitsEv 21 v m) := by
  simp only [List.forall₂_cons_left_iff, List.forall₂_nil_left_iff] at hf
  obtain ⟨⟨v0, m0⟩, _, f0, rfl, rfl⟩ := hf
  obtain ⟨rfl, rfl⟩ : v0 = EPVal.token ∧ m0 = EMVal.plain := f0
  refine ⟨_, rfl, ?_⟩
  exact EGives.pure (by simp only [List.flatMap_cons, List.flatMap_nil, EMVal.blocks, ValImg.blocks, VarImg.blocks, EventImg.blocks, Option.toList, List.map_cons, List.map_nil, List.map_append]; blocks) ⟨⟨_, rfl⟩, rfl⟩

theorem zzm_18 {us : List (EPVal × EMVal)} (hf : List.Forall₂ (fun X (w : EPVal × EMVal) => FitsEv X w.1 w.2) [12] us) :
    ∃ v, zzAction 18 (us.map Prod.fst) = .ok v ∧
      EGives (zzMem 18 (us.map Prod.snd)) (us.flatMap fun w => w.2.blocks) (fun m => FitsEv 21 v m) := by
  simp only [List.forall₂_cons_left_iff, List.forall₂_nil_left_iff] at hf
  obtain ⟨⟨v0, m0⟩, _, f0, rfl, rfl⟩ := hf
  obtain ⟨rfl, rfl⟩ : v0 = EPVal.token ∧ m0 = EMVal.plain := f0
  refine ⟨_, rfl, ?_⟩
  exact EGives.pure (by simp only [List.flatMap_cons, List.flatMap_nil, EMVal.blocks, ValImg.blocks, VarImg.blocks, EventImg.blocks, Option.toList, List.map_cons, List.map_nil, List.map_append]; blocks) ⟨⟨_, rfl⟩, rfl⟩

theorem zzm_19 {us : List (EPVal × EMVal)} (hf : List.Forall₂ (fun X (w : EPVal × EMVal) => FitsEv X w.1 w.2) [13] us) :
    ∃ v, zzAction 19 (us.map Prod.fst) = .ok v ∧
      EGives (zzMem 19 (us.map Prod.snd)) (us.flatMap fun w => w.2.blocks) (fun m => FitsEv 22 v m) := by
  simp only [List.forall₂_cons_left_iff, List.forall₂_nil_left_iff] at hf
  obtain ⟨⟨v0, m0⟩, _, f0, rfl, rfl⟩ := hf
  obtain ⟨⟨x0, rfl⟩, rfl⟩ : (∃ n, v0 = EPVal.int n) ∧ m0 = EMVal.plain := f0
  refine ⟨_, rfl, ?_⟩
  exact EGives.pure (by simp only [List.flatMap_cons, List.flatMap_nil, EMVal.blocks, ValImg.blocks, VarImg.blocks, EventImg.blocks, Option.toList, List.map_cons, List.map_nil, List.map_append]; blocks) ⟨⟨_, rfl⟩, rfl⟩

theorem zzm_20 {us : List (EPVal × EMVal)} (hf : List.Forall₂ (fun X (w : EPVal × EMVal) => FitsEv X w.1 w.2) [9, 13] us) :
    ∃ v, zzAction 20 (us.map Prod.fst) = .ok v ∧
      EGives (zzMem 20 (us.map Prod.snd)) (us.flatMap fun w => w.2.blocks) (fun m => FitsEv 22 v m) := by
  simp only [List.forall₂_cons_left_iff, List.forall₂_nil_left_iff] at hf
  obtain ⟨⟨v0, m0⟩, _, f0, ⟨⟨v1, m1⟩, _, f1, rfl, rfl⟩, rfl⟩ := hf
  obtain ⟨rfl, rfl⟩ : v0 = EPVal.token ∧ m0 = EMVal.plain := f0
  obtain ⟨⟨x1, rfl⟩, rfl⟩ : (∃ n, v1 = EPVal.int n) ∧ m1 = EMVal.plain := f1
  refine ⟨_, rfl, ?_⟩
  exact EGives.pure (by simp only [List.flatMap_cons, List.flatMap_nil, EMVal.blocks, ValImg.blocks, VarImg.blocks, EventImg.blocks, Option.toList, List.map_cons, List.map_nil, List.map_append]; blocks) ⟨⟨_, rfl⟩, rfl⟩

theorem zzm_21 {us : List (EPVal × EMVal)} (hf : List.Forall₂ (fun X (w : EPVal × EMVal) => FitsEv X w.1 w.2) [14] us) :
    ∃ v, zzAction 21 (us.map Prod.fst) = .ok v ∧
      EGives (zzMem 21 (us.map Prod.snd)) (us.flatMap fun w => w.2.blocks) (fun m => FitsEv 23 v m) := by
  simp only [List.forall₂_cons_left_iff, List.forall₂_nil_left_iff] at hf
  obtain ⟨⟨v0, m0⟩, _, f0, rfl, rfl⟩ := hf
  obtain ⟨⟨x0, rfl⟩, rfl⟩ : (∃ n, v0 = EPVal.float n) ∧ m0 = EMVal.plain := f0
  refine ⟨_, rfl, ?_⟩
  exact EGives.pure (by simp only [List.flatMap_cons, List.flatMap_nil, EMVal.blocks, ValImg.blocks, VarImg.blocks, EventImg.blocks, Option.toList, List.map_cons, List.map_nil, List.map_append]; blocks) ⟨⟨_, rfl⟩, rfl⟩

theorem zzm_22 {us : List (EPVal × EMVal)} (hf : List.Forall₂ (fun X (w : EPVal × EMVal) => FitsEv X w.1 w.2) [9, 14] us) :
    ∃ v, zzAction 22 (us.map Prod.fst) = .ok v ∧
      EGives (zzMem 22 (us.map Prod.snd)) (us.flatMap fun w => w.2.blocks) (fun m => FitsEv 23 v m) := by
  simp only [List.forall₂_cons_left_iff, List.forall₂_nil_left_iff] at hf
  obtain ⟨⟨v0, m0⟩, _, f0, ⟨⟨v1, m1⟩, _, f1, rfl, rfl⟩, rfl⟩ := hf
  obtain ⟨rfl, rfl⟩ : v0 = EPVal.token ∧ m0 = EMVal.plain := f0
  obtain ⟨⟨x1, rfl⟩, rfl⟩ : (∃ n, v1 = EPVal.float n) ∧ m1 = EMVal.plain := f1
  refine ⟨_, rfl, ?_⟩
  exact EGives.pure (by simp only [List.flatMap_cons, List.flatMap_nil, EMVal.blocks, ValImg.blocks, VarImg.blocks, EventImg.blocks, Option.toList, List.map_cons, List.map_nil, List.map_append]; blocks) ⟨⟨_, rfl⟩, rfl⟩

theorem zzm_23 {us : List (EPVal × EMVal)} (hf : List.Forall₂ (fun X (w : EPVal × EMVal) => FitsEv X w.1 w.2) [15] us) :
    ∃ v, zzAction 23 (us.map Prod.fst) = .ok v ∧
      EGives (zzMem 23 (us.map Prod.snd)) (us.flatMap fun w => w.2.blocks) (fun m => FitsEv 24 v m) := by
  simp only [List.forall₂_cons_left_iff, List.forall₂_nil_left_iff] at hf
  obtain ⟨⟨v0, m0⟩, _, f0, rfl, rfl⟩ := hf
  obtain ⟨x0, b0, rfl, rfl⟩ : ∃ s b, v0 = EPVal.string s ∧ m0 = EMVal.one b := f0
  refine ⟨_, rfl, ?_⟩
  exact Does.malloc fun s => Does.free (L' := [s]) (by simp only [List.flatMap_cons, List.flatMap_nil, EMVal.blocks, ValImg.blocks, VarImg.blocks, EventImg.blocks, Option.toList, List.map_cons, List.map_nil, List.map_append]; blocks) (EGives.pure (by simp only [List.flatMap_cons, List.flatMap_nil, EMVal.blocks, ValImg.blocks, VarImg.blocks, EventImg.blocks, Option.toList, List.map_cons, List.map_nil, List.map_append]; blocks) ⟨_, _, rfl, rfl⟩)

theorem zzm_24 {us : List (EPVal × EMVal)} (hf : List.Forall₂ (fun X (w : EPVal × EMVal) => FitsEv X w.1 w.2) [5, 6] us) :
    ∃ v, zzAction 24 (us.map Prod.fst) = .ok v ∧
      EGives (zzMem 24 (us.map Prod.snd)) (us.flatMap fun w => w.2.blocks) (fun m => FitsEv 25 v m) := by
  simp only [List.forall₂_cons_left_iff, List.forall₂_nil_left_iff] at hf
  obtain ⟨⟨v0, m0⟩, _, f0, ⟨⟨v1, m1⟩, _, f1, rfl, rfl⟩, rfl⟩ := hf
  obtain ⟨rfl, rfl⟩ : v0 = EPVal.token ∧ m0 = EMVal.plain := f0
  obtain ⟨rfl, rfl⟩ : v1 = EPVal.token ∧ m1 = EMVal.plain := f1
  refine ⟨_, rfl, ?_⟩
  exact Does.malloc fun l => EGives.pure (by simp only [List.flatMap_cons, List.flatMap_nil, EMVal.blocks, ValImg.blocks, VarImg.blocks, EventImg.blocks, Option.toList, List.map_cons, List.map_nil, List.map_append]; blocks) ⟨_, rfl, rfl⟩

theorem zzm_25 {us : List (EPVal × EMVal)} (hf : List.Forall₂ (fun X (w : EPVal × EMVal) => FitsEv X w.1 w.2) [5, 27, 6] us) :
    ∃ v, zzAction 25 (us.map Prod.fst) = .ok v ∧
      EGives (zzMem 25 (us.map Prod.snd)) (us.flatMap fun w => w.2.blocks) (fun m => FitsEv 26 v m) := by
  simp only [List.forall₂_cons_left_iff, List.forall₂_nil_left_iff] at hf
  obtain ⟨⟨v0, m0⟩, _, f0, ⟨⟨v1, m1⟩, _, f1, ⟨⟨v2, m2⟩, _, f2, rfl, rfl⟩, rfl⟩, rfl⟩ := hf
  obtain ⟨rfl, rfl⟩ : v0 = EPVal.token ∧ m0 = EMVal.plain := f0
  obtain ⟨l1, h1, a1, rfl, rfl, z1⟩ : ∃ l h a, v1 = EPVal.ints l ∧ m1 = EMVal.val (.ints h (some a)) ∧ l ≠ [] := f1
  obtain ⟨rfl, rfl⟩ : v2 = EPVal.token ∧ m2 = EMVal.plain := f2
  refine ⟨_, rfl, ?_⟩
  exact EGives.pure (by simp only [List.flatMap_cons, List.flatMap_nil, EMVal.blocks, ValImg.blocks, VarImg.blocks, EventImg.blocks, Option.toList, List.map_cons, List.map_nil, List.map_append]; blocks) ⟨_, _, _, rfl, rfl, z1⟩

theorem zzm_26 {us : List (EPVal × EMVal)} (hf : List.Forall₂ (fun X (w : EPVal × EMVal) => FitsEv X w.1 w.2) [22] us) :
    ∃ v, zzAction 26 (us.map Prod.fst) = .ok v ∧
      EGives (zzMem 26 (us.map Prod.snd)) (us.flatMap fun w => w.2.blocks) (fun m => FitsEv 27 v m) := by
  simp only [List.forall₂_cons_left_iff, List.forall₂_nil_left_iff] at hf
  obtain ⟨⟨v0, m0⟩, _, f0, rfl, rfl⟩ := hf
  obtain ⟨⟨x0, rfl⟩, rfl⟩ : (∃ n, v0 = EPVal.int n) ∧ m0 = EMVal.plain := f0
  refine ⟨_, rfl, ?_⟩
  exact Does.malloc fun l => Does.malloc fun a => EGives.pure (by simp only [List.flatMap_cons, List.flatMap_nil, EMVal.blocks, ValImg.blocks, VarImg.blocks, EventImg.blocks, Option.toList, List.map_cons, List.map_nil, List.map_append]; blocks) ⟨_, _, _, rfl, rfl, by simp⟩

theorem zzm_27 {us : List (EPVal × EMVal)} (hf : List.Forall₂ (fun X (w : EPVal × EMVal) => FitsEv X w.1 w.2) [27, 7, 22] us) :
    ∃ v, zzAction 27 (us.map Prod.fst) = .ok v ∧
      EGives (zzMem 27 (us.map Prod.snd)) (us.flatMap fun w => w.2.blocks) (fun m => FitsEv 27 v m) := by
  simp only [List.forall₂_cons_left_iff, List.forall₂_nil_left_iff] at hf
  obtain ⟨⟨v0, m0⟩, _, f0, ⟨⟨v1, m1⟩, _, f1, ⟨⟨v2, m2⟩, _, f2, rfl, rfl⟩, rfl⟩, rfl⟩ := hf
  obtain ⟨l0, h0, a0, rfl, rfl, z0⟩ : ∃ l h a, v0 = EPVal.ints l ∧ m0 = EMVal.val (.ints h (some a)) ∧ l ≠ [] := f0
  obtain ⟨rfl, rfl⟩ : v1 = EPVal.token ∧ m1 = EMVal.plain := f1
  obtain ⟨⟨x2, rfl⟩, rfl⟩ : (∃ n, v2 = EPVal.int n) ∧ m2 = EMVal.plain := f2
  refine ⟨_, rfl, ?_⟩
  exact Does.realloc (L' := [h0]) (by simp only [List.flatMap_cons, List.flatMap_nil, EMVal.blocks, ValImg.blocks, VarImg.blocks, EventImg.blocks, Option.toList, List.map_cons, List.map_nil, List.map_append]; blocks) fun a => EGives.pure (by simp only [List.flatMap_cons, List.flatMap_nil, EMVal.blocks, ValImg.blocks, VarImg.blocks, EventImg.blocks, Option.toList, List.map_cons, List.map_nil, List.map_append]; blocks) ⟨_, _, _, rfl, rfl, by simp⟩

theorem zzm_28 {us : List (EPVal × EMVal)} (hf : List.Forall₂ (fun X (w : EPVal × EMVal) => FitsEv X w.1 w.2) [5, 29, 6] us) :
    ∃ v, zzAction 28 (us.map Prod.fst) = .ok v ∧
      EGives (zzMem 28 (us.map Prod.snd)) (us.flatMap fun w => w.2.blocks) (fun m => FitsEv 28 v m) := by
  simp only [List.forall₂_cons_left_iff, List.forall₂_nil_left_iff] at hf
  obtain ⟨⟨v0, m0⟩, _, f0, ⟨⟨v1, m1⟩, _, f1, ⟨⟨v2, m2⟩, _, f2, rfl, rfl⟩, rfl⟩, rfl⟩ := hf
  obtain ⟨rfl, rfl⟩ : v0 = EPVal.token ∧ m0 = EMVal.plain := f0
  obtain ⟨l1, h1, a1, s1, rfl, rfl, z1, n1⟩ : ∃ l h a ss, v1 = EPVal.strs l ∧ m1 = EMVal.val (.strs h (some a) ss) ∧ l ≠ [] ∧ ss.length = l.length := f1
  obtain ⟨rfl, rfl⟩ : v2 = EPVal.token ∧ m2 = EMVal.plain := f2
  refine ⟨_, rfl, ?_⟩
  exact EGives.pure (by simp only [List.flatMap_cons, List.flatMap_nil, EMVal.blocks, ValImg.blocks, VarImg.blocks, EventImg.blocks, Option.toList, List.map_cons, List.map_nil, List.map_append]; blocks) ⟨_, _, _, _, rfl, rfl, z1, n1⟩

theorem zzm_29 {us : List (EPVal × EMVal)} (hf : List.Forall₂ (fun X (w : EPVal × EMVal) => FitsEv X w.1 w.2) [24] us) :
    ∃ v, zzAction 29 (us.map Prod.fst) = .ok v ∧
      EGives (zzMem 29 (us.map Prod.snd)) (us.flatMap fun w => w.2.blocks) (fun m => FitsEv 29 v m) := by
  simp only [List.forall₂_cons_left_iff, List.forall₂_nil_left_iff] at hf
  obtain ⟨⟨v0, m0⟩, _, f0, rfl, rfl⟩ := hf
  obtain ⟨x0, b0, rfl, rfl⟩ : ∃ s b, v0 = EPVal.strVal s ∧ m0 = EMVal.one b := f0
  refine ⟨_, rfl, ?_⟩
  exact Does.malloc fun l => Does.malloc fun a => EGives.pure (by simp only [List.flatMap_cons, List.flatMap_nil, EMVal.blocks, ValImg.blocks, VarImg.blocks, EventImg.blocks, Option.toList, List.map_cons, List.map_nil, List.map_append]; blocks) ⟨_, _, _, _, rfl, rfl, by simp, by simp⟩

theorem zzm_30 {us : List (EPVal × EMVal)} (hf : List.Forall₂ (fun X (w : EPVal × EMVal) => FitsEv X w.1 w.2) [29, 7, 24] us) :
    ∃ v, zzAction 30 (us.map Prod.fst) = .ok v ∧
      EGives (zzMem 30 (us.map Prod.snd)) (us.flatMap fun w => w.2.blocks) (fun m => FitsEv 29 v m) := by
  simp only [List.forall₂_cons_left_iff, List.forall₂_nil_left_iff] at hf
  obtain ⟨⟨v0, m0⟩, _, f0, ⟨⟨v1, m1⟩, _, f1, ⟨⟨v2, m2⟩, _, f2, rfl, rfl⟩, rfl⟩, rfl⟩ := hf
  obtain ⟨l0, h0, a0, s0, rfl, rfl, z0, n0⟩ : ∃ l h a ss, v0 = EPVal.strs l ∧ m0 = EMVal.val (.strs h (some a) ss) ∧ l ≠ [] ∧ ss.length = l.length := f0
  obtain ⟨rfl, rfl⟩ : v1 = EPVal.token ∧ m1 = EMVal.plain := f1
  obtain ⟨x2, b2, rfl, rfl⟩ : ∃ s b, v2 = EPVal.strVal s ∧ m2 = EMVal.one b := f2
  refine ⟨_, rfl, ?_⟩
  exact Does.realloc (L' := h0 :: (s0 ++ [b2])) (by simp only [List.flatMap_cons, List.flatMap_nil, EMVal.blocks, ValImg.blocks, VarImg.blocks, EventImg.blocks, Option.toList, List.map_cons, List.map_nil, List.map_append]; blocks) fun a => EGives.pure (by simp only [List.flatMap_cons, List.flatMap_nil, EMVal.blocks, ValImg.blocks, VarImg.blocks, EventImg.blocks, Option.toList, List.map_cons, List.map_nil, List.map_append]; blocks) ⟨_, _, _, _, rfl, rfl, by simp, by simp [n0]⟩

theorem zzm_31 {us : List (EPVal × EMVal)} (hf : List.Forall₂ (fun X (w : EPVal × EMVal) => FitsEv X w.1 w.2) [5, 31, 6] us) :
    ∃ v, zzAction 31 (us.map Prod.fst) = .ok v ∧
      EGives (zzMem 31 (us.map Prod.snd)) (us.flatMap fun w => w.2.blocks) (fun m => FitsEv 30 v m) := by
  simp only [List.forall₂_cons_left_iff, List.forall₂_nil_left_iff] at hf
  obtain ⟨⟨v0, m0⟩, _, f0, ⟨⟨v1, m1⟩, _, f1, ⟨⟨v2, m2⟩, _, f2, rfl, rfl⟩, rfl⟩, rfl⟩ := hf
  obtain ⟨rfl, rfl⟩ : v0 = EPVal.token ∧ m0 = EMVal.plain := f0
  obtain ⟨l1, h1, a1, s1, rfl, rfl, z1, n1⟩ : ∃ l h a ss, v1 = EPVal.segs l ∧ m1 = EMVal.val (.segs h (some a) ss) ∧ l ≠ [] ∧ ss.length = l.length := f1
  obtain ⟨rfl, rfl⟩ : v2 = EPVal.token ∧ m2 = EMVal.plain := f2
  refine ⟨_, rfl, ?_⟩
  exact EGives.pure (by simp only [List.flatMap_cons, List.flatMap_nil, EMVal.blocks, ValImg.blocks, VarImg.blocks, EventImg.blocks, Option.toList, List.map_cons, List.map_nil, List.map_append]; blocks) ⟨_, _, _, _, rfl, rfl, z1, n1⟩

theorem zzm_32 {us : List (EPVal × EMVal)} (hf : List.Forall₂ (fun X (w : EPVal × EMVal) => FitsEv X w.1 w.2) [32] us) :
    ∃ v, zzAction 32 (us.map Prod.fst) = .ok v ∧
      EGives (zzMem 32 (us.map Prod.snd)) (us.flatMap fun w => w.2.blocks) (fun m => FitsEv 31 v m) := by
  simp only [List.forall₂_cons_left_iff, List.forall₂_nil_left_iff] at hf
  obtain ⟨⟨v0, m0⟩, _, f0, rfl, rfl⟩ := hf
  obtain ⟨x0, b0, rfl, rfl⟩ : ∃ s b, v0 = EPVal.seg s ∧ m0 = EMVal.one b := f0
  refine ⟨_, rfl, ?_⟩
  exact Does.malloc fun l => Does.malloc fun a => EGives.pure (by simp only [List.flatMap_cons, List.flatMap_nil, EMVal.blocks, ValImg.blocks, VarImg.blocks, EventImg.blocks, Option.toList, List.map_cons, List.map_nil, List.map_append]; blocks) ⟨_, _, _, _, rfl, rfl, by simp, by simp⟩

theorem zzm_33 {us : List (EPVal × EMVal)} (hf : List.Forall₂ (fun X (w : EPVal × EMVal) => FitsEv X w.1 w.2) [31, 7, 32] us) :
    ∃ v, zzAction 33 (us.map Prod.fst) = .ok v ∧
      EGives (zzMem 33 (us.map Prod.snd)) (us.flatMap fun w => w.2.blocks) (fun m => FitsEv 31 v m) := by
  simp only [List.forall₂_cons_left_iff, List.forall₂_nil_left_iff] at hf
  obtain ⟨⟨v0, m0⟩, _, f0, ⟨⟨v1, m1⟩, _, f1, ⟨⟨v2, m2⟩, _, f2, rfl, rfl⟩, rfl⟩, rfl⟩ := hf
  obtain ⟨l0, h0, a0, s0, rfl, rfl, z0, n0⟩ : ∃ l h a ss, v0 = EPVal.segs l ∧ m0 = EMVal.val (.segs h (some a) ss) ∧ l ≠ [] ∧ ss.length = l.length := f0
  obtain ⟨rfl, rfl⟩ : v1 = EPVal.token ∧ m1 = EMVal.plain := f1
  obtain ⟨x2, b2, rfl, rfl⟩ : ∃ s b, v2 = EPVal.seg s ∧ m2 = EMVal.one b := f2
  refine ⟨_, rfl, ?_⟩
  exact Does.realloc (L' := h0 :: (s0 ++ [b2])) (by simp only [List.flatMap_cons, List.flatMap_nil, EMVal.blocks, ValImg.blocks, VarImg.blocks, EventImg.blocks, Option.toList, List.map_cons, List.map_nil, List.map_append]; blocks) fun a => EGives.pure (by simp only [List.flatMap_cons, List.flatMap_nil, EMVal.blocks, ValImg.blocks, VarImg.blocks, EventImg.blocks, Option.toList, List.map_cons, List.map_nil, List.map_append]; blocks) ⟨_, _, _, _, rfl, rfl, by simp, by simp [n0]⟩

theorem zzm_34 {us : List (EPVal × EMVal)} (hf : List.Forall₂ (fun X (w : EPVal × EMVal) => FitsEv X w.1 w.2) [5, 22, 7, 22, 6] us) :
    ∃ v, zzAction 34 (us.map Prod.fst) = .ok v ∧
      EGives (zzMem 34 (us.map Prod.snd)) (us.flatMap fun w => w.2.blocks) (fun m => FitsEv 32 v m) := by
  simp only [List.forall₂_cons_left_iff, List.forall₂_nil_left_iff] at hf
  obtain ⟨⟨v0, m0⟩, _, f0, ⟨⟨v1, m1⟩, _, f1, ⟨⟨v2, m2⟩, _, f2, ⟨⟨v3, m3⟩, _, f3, ⟨⟨v4, m4⟩, _, f4, rfl, rfl⟩, rfl⟩, rfl⟩, rfl⟩, rfl⟩ := hf
  obtain ⟨rfl, rfl⟩ : v0 = EPVal.token ∧ m0 = EMVal.plain := f0
  obtain ⟨⟨x1, rfl⟩, rfl⟩ : (∃ n, v1 = EPVal.int n) ∧ m1 = EMVal.plain := f1
  obtain ⟨rfl, rfl⟩ : v2 = EPVal.token ∧ m2 = EMVal.plain := f2
  obtain ⟨⟨x3, rfl⟩, rfl⟩ : (∃ n, v3 = EPVal.int n) ∧ m3 = EMVal.plain := f3
  obtain ⟨rfl, rfl⟩ : v4 = EPVal.token ∧ m4 = EMVal.plain := f4
  refine ⟨_, rfl, ?_⟩
  exact Does.malloc fun s => EGives.pure (by simp only [List.flatMap_cons, List.flatMap_nil, EMVal.blocks, ValImg.blocks, VarImg.blocks, EventImg.blocks, Option.toList, List.map_cons, List.map_nil, List.map_append]; blocks) ⟨_, _, rfl, rfl⟩

theorem zzm_35 {us : List (EPVal × EMVal)} (hf : List.Forall₂ (fun X (w : EPVal × EMVal) => FitsEv X w.1 w.2) [5, 34, 6] us) :
    ∃ v, zzAction 35 (us.map Prod.fst) = .ok v ∧
      EGives (zzMem 35 (us.map Prod.snd)) (us.flatMap fun w => w.2.blocks) (fun m => FitsEv 33 v m) := by
  simp only [List.forall₂_cons_left_iff, List.forall₂_nil_left_iff] at hf
  obtain ⟨⟨v0, m0⟩, _, f0, ⟨⟨v1, m1⟩, _, f1, ⟨⟨v2, m2⟩, _, f2, rfl, rfl⟩, rfl⟩, rfl⟩ := hf
  obtain ⟨rfl, rfl⟩ : v0 = EPVal.token ∧ m0 = EMVal.plain := f0
  obtain ⟨l1, h1, a1, s1, rfl, rfl, z1, n1⟩ : ∃ l h a cs, v1 = EPVal.caps l ∧ m1 = EMVal.val (.caps h (some a) cs) ∧ l ≠ [] ∧ cs.length = l.length := f1
  obtain ⟨rfl, rfl⟩ : v2 = EPVal.token ∧ m2 = EMVal.plain := f2
  refine ⟨_, rfl, ?_⟩
  exact EGives.pure (by simp only [List.flatMap_cons, List.flatMap_nil, EMVal.blocks, ValImg.blocks, VarImg.blocks, EventImg.blocks, Option.toList, List.map_cons, List.map_nil, List.map_append]; blocks) ⟨_, _, _, _, rfl, rfl, z1, n1⟩

theorem zzm_36 {us : List (EPVal × EMVal)} (hf : List.Forall₂ (fun X (w : EPVal × EMVal) => FitsEv X w.1 w.2) [35] us) :
    ∃ v, zzAction 36 (us.map Prod.fst) = .ok v ∧
      EGives (zzMem 36 (us.map Prod.snd)) (us.flatMap fun w => w.2.blocks) (fun m => FitsEv 34 v m) := by
  simp only [List.forall₂_cons_left_iff, List.forall₂_nil_left_iff] at hf
  obtain ⟨⟨v0, m0⟩, _, f0, rfl, rfl⟩ := hf
  obtain ⟨c0, b0, ns0, rfl, rfl⟩ : ∃ c b ns, v0 = EPVal.cap c ∧ m0 = EMVal.cap b ns := f0
  refine ⟨_, rfl, ?_⟩
  exact Does.malloc fun l => Does.malloc fun a => EGives.pure (by simp only [List.flatMap_cons, List.flatMap_nil, EMVal.blocks, ValImg.blocks, VarImg.blocks, EventImg.blocks, Option.toList, List.map_cons, List.map_nil, List.map_append]; blocks) ⟨_, _, _, _, rfl, rfl, by simp, by simp⟩

theorem zzm_37 {us : List (EPVal × EMVal)} (hf : List.Forall₂ (fun X (w : EPVal × EMVal) => FitsEv X w.1 w.2) [34, 7, 35] us) :
    ∃ v, zzAction 37 (us.map Prod.fst) = .ok v ∧
      EGives (zzMem 37 (us.map Prod.snd)) (us.flatMap fun w => w.2.blocks) (fun m => FitsEv 34 v m) := by
  simp only [List.forall₂_cons_left_iff, List.forall₂_nil_left_iff] at hf
  obtain ⟨⟨v0, m0⟩, _, f0, ⟨⟨v1, m1⟩, _, f1, ⟨⟨v2, m2⟩, _, f2, rfl, rfl⟩, rfl⟩, rfl⟩ := hf
  obtain ⟨l0, h0, a0, s0, rfl, rfl, z0, n0⟩ : ∃ l h a cs, v0 = EPVal.caps l ∧ m0 = EMVal.val (.caps h (some a) cs) ∧ l ≠ [] ∧ cs.length = l.length := f0
  obtain ⟨rfl, rfl⟩ : v1 = EPVal.token ∧ m1 = EMVal.plain := f1
  obtain ⟨c2, b2, ns2, rfl, rfl⟩ : ∃ c b ns, v2 = EPVal.cap c ∧ m2 = EMVal.cap b ns := f2
  refine ⟨_, rfl, ?_⟩
  exact Does.realloc (L' := h0 :: ((s0.map Prod.fst ++ s0.map Prod.snd) ++ [b2, ns2])) (by simp only [List.flatMap_cons, List.flatMap_nil, EMVal.blocks, ValImg.blocks, VarImg.blocks, EventImg.blocks, Option.toList, List.map_cons, List.map_nil, List.map_append]; blocks) fun a => EGives.pure (by simp only [List.flatMap_cons, List.flatMap_nil, EMVal.blocks, ValImg.blocks, VarImg.blocks, EventImg.blocks, Option.toList, List.map_cons, List.map_nil, List.map_append]; blocks) ⟨_, _, _, _, rfl, rfl, by simp, by simp [n0]⟩

theorem zzm_38 {us : List (EPVal × EMVal)} (hf : List.Forall₂ (fun X (w : EPVal × EMVal) => FitsEv X w.1 w.2) [5, 15, 7, 22, 7, 24, 7, 22, 7, 22, 6] us) :
    ∃ v, zzAction 38 (us.map Prod.fst) = .ok v ∧
      EGives (zzMem 38 (us.map Prod.snd)) (us.flatMap fun w => w.2.blocks) (fun m => FitsEv 35 v m) := by
  simp only [List.forall₂_cons_left_iff, List.forall₂_nil_left_iff] at hf
  obtain ⟨⟨v0, m0⟩, _, f0, ⟨⟨v1, m1⟩, _, f1, ⟨⟨v2, m2⟩, _, f2, ⟨⟨v3, m3⟩, _, f3, ⟨⟨v4, m4⟩, _, f4, ⟨⟨v5, m5⟩, _, f5, ⟨⟨v6, m6⟩, _, f6, ⟨⟨v7, m7⟩, _, f7, ⟨⟨v8, m8⟩, _, f8, ⟨⟨v9, m9⟩, _, f9, ⟨⟨v10, m10⟩, _, f10, rfl, rfl⟩, rfl⟩, rfl⟩, rfl⟩, rfl⟩, rfl⟩, rfl⟩, rfl⟩, rfl⟩, rfl⟩, rfl⟩ := hf
  obtain ⟨rfl, rfl⟩ : v0 = EPVal.token ∧ m0 = EMVal.plain := f0
  obtain ⟨x1, b1, rfl, rfl⟩ : ∃ s b, v1 = EPVal.string s ∧ m1 = EMVal.one b := f1
  obtain ⟨rfl, rfl⟩ : v2 = EPVal.token ∧ m2 = EMVal.plain := f2
  obtain ⟨⟨x3, rfl⟩, rfl⟩ : (∃ n, v3 = EPVal.int n) ∧ m3 = EMVal.plain := f3
  obtain ⟨rfl, rfl⟩ : v4 = EPVal.token ∧ m4 = EMVal.plain := f4
  obtain ⟨x5, b5, rfl, rfl⟩ : ∃ s b, v5 = EPVal.strVal s ∧ m5 = EMVal.one b := f5
  obtain ⟨rfl, rfl⟩ : v6 = EPVal.token ∧ m6 = EMVal.plain := f6
  obtain ⟨⟨x7, rfl⟩, rfl⟩ : (∃ n, v7 = EPVal.int n) ∧ m7 = EMVal.plain := f7
  obtain ⟨rfl, rfl⟩ : v8 = EPVal.token ∧ m8 = EMVal.plain := f8
  obtain ⟨⟨x9, rfl⟩, rfl⟩ : (∃ n, v9 = EPVal.int n) ∧ m9 = EMVal.plain := f9
  obtain ⟨rfl, rfl⟩ : v10 = EPVal.token ∧ m10 = EMVal.plain := f10
  refine ⟨_, rfl, ?_⟩
  exact Does.malloc fun c => Does.free (L' := [c, b5]) (by simp only [List.flatMap_cons, List.flatMap_nil, EMVal.blocks, ValImg.blocks, VarImg.blocks, EventImg.blocks, Option.toList, List.map_cons, List.map_nil, List.map_append]; blocks) (EGives.pure (by simp only [List.flatMap_cons, List.flatMap_nil, EMVal.blocks, ValImg.blocks, VarImg.blocks, EventImg.blocks, Option.toList, List.map_cons, List.map_nil, List.map_append]; blocks) ⟨_, _, _, rfl, rfl⟩)

theorem zzm_39 {us : List (EPVal × EMVal)} (hf : List.Forall₂ (fun X (w : EPVal × EMVal) => FitsEv X w.1 w.2) [5, 5, 15, 7, 22, 7, 24, 6, 7, 22, 7, 22, 6] us) :
    ∃ v, zzAction 39 (us.map Prod.fst) = .ok v ∧
      EGives (zzMem 39 (us.map Prod.snd)) (us.flatMap fun w => w.2.blocks) (fun m => FitsEv 35 v m) := by
  simp only [List.forall₂_cons_left_iff, List.forall₂_nil_left_iff] at hf
  obtain ⟨⟨v0, m0⟩, _, f0, ⟨⟨v1, m1⟩, _, f1, ⟨⟨v2, m2⟩, _, f2, ⟨⟨v3, m3⟩, _, f3, ⟨⟨v4, m4⟩, _, f4, ⟨⟨v5, m5⟩, _, f5, ⟨⟨v6, m6⟩, _, f6, ⟨⟨v7, m7⟩, _, f7, ⟨⟨v8, m8⟩, _, f8, ⟨⟨v9, m9⟩, _, f9, ⟨⟨v10, m10⟩, _, f10, ⟨⟨v11, m11⟩, _, f11, ⟨⟨v12, m12⟩, _, f12, rfl, rfl⟩, rfl⟩, rfl⟩, rfl⟩, rfl⟩, rfl⟩, rfl⟩, rfl⟩, rfl⟩, rfl⟩, rfl⟩, rfl⟩, rfl⟩ := hf
  obtain ⟨rfl, rfl⟩ : v0 = EPVal.token ∧ m0 = EMVal.plain := f0
  obtain ⟨rfl, rfl⟩ : v1 = EPVal.token ∧ m1 = EMVal.plain := f1
  obtain ⟨x2, b2, rfl, rfl⟩ : ∃ s b, v2 = EPVal.string s ∧ m2 = EMVal.one b := f2
  obtain ⟨rfl, rfl⟩ : v3 = EPVal.token ∧ m3 = EMVal.plain := f3
  obtain ⟨⟨x4, rfl⟩, rfl⟩ : (∃ n, v4 = EPVal.int n) ∧ m4 = EMVal.plain := f4
  obtain ⟨rfl, rfl⟩ : v5 = EPVal.token ∧ m5 = EMVal.plain := f5
  obtain ⟨x6, b6, rfl, rfl⟩ : ∃ s b, v6 = EPVal.strVal s ∧ m6 = EMVal.one b := f6
  obtain ⟨rfl, rfl⟩ : v7 = EPVal.token ∧ m7 = EMVal.plain := f7
  obtain ⟨rfl, rfl⟩ : v8 = EPVal.token ∧ m8 = EMVal.plain := f8
  obtain ⟨⟨x9, rfl⟩, rfl⟩ : (∃ n, v9 = EPVal.int n) ∧ m9 = EMVal.plain := f9
  obtain ⟨rfl, rfl⟩ : v10 = EPVal.token ∧ m10 = EMVal.plain := f10
  obtain ⟨⟨x11, rfl⟩, rfl⟩ : (∃ n, v11 = EPVal.int n) ∧ m11 = EMVal.plain := f11
  obtain ⟨rfl, rfl⟩ : v12 = EPVal.token ∧ m12 = EMVal.plain := f12
  refine ⟨_, rfl, ?_⟩
  exact Does.malloc fun c => Does.free (L' := [c, b6]) (by simp only [List.flatMap_cons, List.flatMap_nil, EMVal.blocks, ValImg.blocks, VarImg.blocks, EventImg.blocks, Option.toList, List.map_cons, List.map_nil, List.map_append]; blocks) (EGives.pure (by simp only [List.flatMap_cons, List.flatMap_nil, EMVal.blocks, ValImg.blocks, VarImg.blocks, EventImg.blocks, Option.toList, List.map_cons, List.map_nil, List.map_append]; blocks) ⟨_, _, _, rfl, rfl⟩)

theorem zzm_rules (nt : Nat) (us : List (EPVal × EMVal)) : (r : Nat) → r ≠ 0 → r ≠ 1 →
    List.Forall₂ (fun X (w : EPVal × EMVal) => FitsEv X w.1 w.2) (zzCert.rule r) us → zzTables.r1[r]? = some nt →
    ∃ v, zzAction r (us.map Prod.fst) = .ok v ∧
      EGives (zzMem r (us.map Prod.snd)) (us.flatMap fun w => w.2.blocks) (fun m => FitsEv nt v m)
  | 0, h, _, _, _ => absurd rfl h
  | 1, _, h, _, _ => absurd rfl h
  | 2, _, _, hf, hr => by
    obtain rfl : 17 = nt := Option.some.inj hr
    exact zzm_2 hf
  | 3, _, _, hf, hr => by
    obtain rfl : 17 = nt := Option.some.inj hr
    exact zzm_3 hf
  | 4, _, _, hf, hr => by
    obtain rfl : 18 = nt := Option.some.inj hr
    exact zzm_4 hf
  | 5, _, _, hf, hr => by
    obtain rfl : 18 = nt := Option.some.inj hr
    exact zzm_5 hf
  | 6, _, _, hf, hr => by
    obtain rfl : 19 = nt := Option.some.inj hr
    exact zzm_6 hf
  | 7, _, _, hf, hr => by
    obtain rfl : 19 = nt := Option.some.inj hr
    exact zzm_7 hf
  | 8, _, _, hf, hr => by
    obtain rfl : 20 = nt := Option.some.inj hr
    exact zzm_8 hf
  | 9, _, _, hf, hr => by
    obtain rfl : 20 = nt := Option.some.inj hr
    exact zzm_9 hf
  | 10, _, _, hf, hr => by
    obtain rfl : 20 = nt := Option.some.inj hr
    exact zzm_10 hf
  | 11, _, _, hf, hr => by
    obtain rfl : 20 = nt := Option.some.inj hr
    exact zzm_11 hf
  | 12, _, _, hf, hr => by
    obtain rfl : 20 = nt := Option.some.inj hr
    exact zzm_12 hf
  | 13, _, _, hf, hr => by
    obtain rfl : 20 = nt := Option.some.inj hr
    exact zzm_13 hf
  | 14, _, _, hf, hr => by
    obtain rfl : 20 = nt := Option.some.inj hr
    exact zzm_14 hf
  | 15, _, _, hf, hr => by
    obtain rfl : 20 = nt := Option.some.inj hr
    exact zzm_15 hf
  | 16, _, _, hf, hr => by
    obtain rfl : 20 = nt := Option.some.inj hr
    exact zzm_16 hf
  | 17, _, _, hf, hr => by
    obtain rfl : 21 = nt := Option.some.inj hr
    exact zzm_17 hf
  | 18, _, _, hf, hr => by
    obtain rfl : 21 = nt := Option.some.inj hr
    exact zzm_18 hf
  | 19, _, _, hf, hr => by
    obtain rfl : 22 = nt := Option.some.inj hr
    exact zzm_19 hf
  | 20, _, _, hf, hr => by
    obtain rfl : 22 = nt := Option.some.inj hr
    exact zzm_20 hf
  | 21, _, _, hf, hr => by
    obtain rfl : 23 = nt := Option.some.inj hr
    exact zzm_21 hf
  | 22, _, _, hf, hr => by
    obtain rfl : 23 = nt := Option.some.inj hr
    exact zzm_22 hf
  | 23, _, _, hf, hr => by
    obtain rfl : 24 = nt := Option.some.inj hr
    exact zzm_23 hf
  | 24, _, _, hf, hr => by
    obtain rfl : 25 = nt := Option.some.inj hr
    exact zzm_24 hf
  | 25, _, _, hf, hr => by
    obtain rfl : 26 = nt := Option.some.inj hr
    exact zzm_25 hf
  | 26, _, _, hf, hr => by
    obtain rfl : 27 = nt := Option.some.inj hr
    exact zzm_26 hf
  | 27, _, _, hf, hr => by
    obtain rfl : 27 = nt := Option.some.inj hr
    exact zzm_27 hf
  | 28, _, _, hf, hr => by
    obtain rfl : 28 = nt := Option.some.inj hr
    exact zzm_28 hf
  | 29, _, _, hf, hr => by
    obtain rfl : 29 = nt := Option.some.inj hr
    exact zzm_29 hf
  | 30, _, _, hf, hr => by
    obtain rfl : 29 = nt := Option.some.inj hr
    exact zzm_30 hf
  | 31, _, _, hf, hr => by
    obtain rfl : 30 = nt := Option.some.inj hr
    exact zzm_31 hf
  | 32, _, _, hf, hr => by
    obtain rfl : 31 = nt := Option.some.inj hr
    exact zzm_32 hf
  | 33, _, _, hf, hr => by
    obtain rfl : 31 = nt := Option.some.inj hr
    exact zzm_33 hf
  | 34, _, _, hf, hr => by
    obtain rfl : 32 = nt := Option.some.inj hr
    exact zzm_34 hf
  | 35, _, _, hf, hr => by
    obtain rfl : 33 = nt := Option.some.inj hr
    exact zzm_35 hf
  | 36, _, _, hf, hr => by
    obtain rfl : 34 = nt := Option.some.inj hr
    exact zzm_36 hf
  | 37, _, _, hf, hr => by
    obtain rfl : 34 = nt := Option.some.inj hr
    exact zzm_37 hf
  | 38, _, _, hf, hr => by
    obtain rfl : 35 = nt := Option.some.inj hr
    exact zzm_38 hf
  | 39, _, _, hf, hr => by
    obtain rfl : 35 = nt := Option.some.inj hr
    exact zzm_39 hf
  | r + 40, _, _, _, hr => by
    have h : zzTables.r1.length = 40 := rfl
    rw [List.getElem?_eq_none (by omega)] at hr
    cases hr

/-! ### the parser -/

/-- a value with its blocks -/
abbrev EPM := EPVal × EMVal

/-- what is on the stack, described by `FitsEv` -/
abbrev EvFitM : Nat → Nat → List ETok → Nat → EPM → Prop := fun _ X ts _ w => FitsEv X w.1 w.2 ∧ (X = 0 → ts = [])

theorem ev_chain_fits {p q la : Nat} {Xs : List Nat} {ts : List ETok} {us : List EPM} (h : Chain ETok.num zzCert EvFitM p Xs ts la us q) :
    List.Forall₂ (fun X (w : EPM) => FitsEv X w.1 w.2) Xs us := by
  induction Xs generalizing p ts us with
  | nil => obtain ⟨_, rfl, _⟩ := h; exact .nil
  | cons X Xs ih =>
    obtain ⟨v, vs, t1, t2, s, rfl, rfl, hm, _, _, hc⟩ := h
    exact .cons hm.1 (ih hc)

def evStackBlocks (stk : List (Nat × EPM)) : List Nat := stk.flatMap fun p => p.2.2.blocks

theorem etokMem_does (t : ETok) : EGives (etokMem t) [] (fun m => FitsEv t.num t.val m) := by
  cases t
  case string s => exact Does.malloc fun b => EGives.pure (.refl _) ⟨_, _, rfl, rfl⟩
  case int n => exact EGives.pure (.refl _) ⟨⟨_, rfl⟩, rfl⟩
  case float n => exact EGives.pure (.refl _) ⟨⟨_, rfl⟩, rfl⟩
  all_goals exact EGives.pure (.refl _) ⟨rfl, rfl⟩

theorem etokVal_does (t : ETok) :
    Does (etokValMem t) [] (fun w M => w.1 = t.val ∧ M.Perm w.2.blocks ∧ FitsEv t.num w.1 w.2) := by
  refine Does.seq (L' := []) (by simp) (etokMem_does t) fun m M hM => Does.pure (L' := M) (by simp) ⟨rfl, hM.1, hM.2⟩

theorem evAction_does {nt r : Nat} {us : List EPM} (h0 : r ≠ 0) (h1 : r ≠ 1)
    (hf : List.Forall₂ (fun X (w : EPM) => FitsEv X w.1 w.2) (zzCert.rule r) us) (hr : zzTables.r1[r]? = some nt) :
    ∃ v, zzAction r (us.map Prod.fst) = .ok v ∧
      Does (zzActionMem r us) (us.flatMap fun w => w.2.blocks) (fun w M => w.1 = v ∧ M.Perm w.2.blocks ∧ FitsEv nt w.1 w.2) := by
  obtain ⟨v, hv, hd⟩ := zzm_rules nt us r h0 h1 hf hr
  refine ⟨v, hv, ?_⟩
  simp only [zzActionMem, hv]
  refine Does.seq (P := []) (L' := us.flatMap fun w => w.2.blocks) (Q' := fun a M => a = v ∧ M = []) (by simp)
    (Does.pure (L' := []) (.refl _) ⟨rfl, rfl⟩) ?_
  rintro _ _ ⟨rfl, rfl⟩
  refine Does.seq (P := us.flatMap fun w => w.2.blocks) (L' := []) (by simp) hd fun m M hM => ?_
  exact Does.pure (L' := M) (by simp) ⟨rfl, hM.1, hM.2⟩

/-- forgetting the blocks -/
def evPlainStack (stk : List (Nat × EPM)) : List (Nat × EPVal) := stk.map fun p => (p.1, p.2.1)

theorem topState_evPlain (stk : List (Nat × EPM)) : topState (evPlainStack stk) = topState stk := by
  cases stk with
  | nil => rfl
  | cons a stk => rfl

/-- what the run with blocks gives, when the run without gives `r` -/
def EvParsed (r : Except Fault (Option EPVal)) (x : Option EPM) (M : List Nat) : Prop :=
  (r = .ok none ∧ x = none) ∨
    ∃ e i, r = .ok (some (.event e)) ∧ x = some (.event e, .event i) ∧ FitsEvent e i ∧ M.Perm i.blocks

theorem lrMem_ev_sound (fuel : Nat) :
    ∀ (stk : List (Nat × EPM)) (input ws : List ETok),
      Path ETok.num zzCert EvFitM stk ws (nextNum ETok.num input) → (topState stk = zzTables.final → input = []) →
      stackWeight zzCert stk + 11 * input.length + (if topState stk = zzTables.final then 0 else 11) < fuel →
      Does (lrMem zzTables ETok.num etokValMem (.token, .plain) zzActionMem fuel stk input) (evStackBlocks stk)
        (EvParsed (lrRun zzTables ETok.num ETok.val .token zzAction fuel (evPlainStack stk) input)) := by
  have hC := zzCert_ok
  induction fuel with
  | zero => intro stk input ws _ _ hf; omega
  | succ fuel ih =>
    intro stk input ws hp hfin hfuel
    have htop := path_top_lt hp hC.zero.1
    have hst := hC.states _ htop
    rw [lrRun_succ, lrMem_succ, topState_evPlain]
    rw [show (evPlainStack stk).length = stk.length by simp [evPlainStack]]
    by_cases hd : zzTables.depth ≤ stk.length + 1
    · rw [if_pos hd, if_pos hd]; exact Does.pure (.refl _) (Or.inl ⟨rfl, rfl⟩)
    · rw [if_neg hd, if_neg hd]
      by_cases hf : topState stk = zzTables.final
      · rw [if_pos hf, if_pos hf]
        have hb := hC.final
        rw [← hf] at hb
        obtain ⟨ws', ts, rfl, hlen, hp1, hc, hk⟩ := path_pop hp hb (by
          intro X hX; simp only [List.mem_cons, List.not_mem_nil, or_false] at hX
          rcases hX with rfl | rfl
          · exact hC.zero.2.1
          · exact hC.zero.2.2.1)
        simp only [List.length_cons, List.length_nil, Nat.zero_add, Nat.reduceAdd] at *
        clear hfuel ih hst hb hd htop
        obtain ⟨⟨s1, v1⟩, stk1, rfl⟩ : ∃ a l, stk = a :: l := by
          cases stk with
          | nil => simp at hlen
          | cons a l => exact ⟨a, l, rfl⟩
        obtain ⟨⟨s2, v2⟩, rest, rfl⟩ : ∃ a l, stk1 = a :: l := by
          cases stk1 with
          | nil => simp at hlen
          | cons a l => exact ⟨a, l, rfl⟩
        simp only [List.drop_succ_cons, List.drop_zero, beq_iff_eq] at hp1 hk hc
        cases rest with
        | cons a rest =>
          obtain ⟨s3, v3⟩ := a
          simp only [topState] at hk
          subst hk
          obtain ⟨_, _, _, _, he, _, hp2⟩ := hp1
          exact absurd he (hC.bottomPre _ (path_top_lt hp2 hC.zero.1))
        | nil =>
          simp only [List.take_succ_cons, List.take_zero, List.reverse_cons, List.reverse_nil, List.nil_append, List.cons_append,
            List.map_cons, List.map_nil, Chain, topState] at hc
          obtain ⟨u, us, t1, t2, s, he, rfl, hm, _, _, u2, us2, t3, t4, s', he2, rfl, hm2, _, _, rfl, _, _⟩ := hc
          cases he
          cases he2
          obtain ⟨p2, m2⟩ := v2
          obtain ⟨p1, m1⟩ := v1
          obtain ⟨e, i, rfl, rfl, hn⟩ : ∃ e i, p2 = EPVal.event e ∧ m2 = EMVal.event i ∧ FitsEvent e i := hm.1
          obtain ⟨rfl, rfl⟩ : p1 = EPVal.token ∧ m1 = EMVal.plain := hm2.1
          exact Does.pure (.refl _) (Or.inr ⟨e, i, rfl, rfl, hn, by simp [evStackBlocks, EMVal.blocks]⟩)
      · rw [if_neg hf, if_neg hf]
        rw [if_neg hf] at hfuel
        simp only [LRCert.stateOK, Bool.or_eq_true, beq_iff_eq, hf, false_or, Bool.and_eq_true, List.all_eq_true, List.mem_range] at hst
        have hla : nextNum ETok.num input < zzTables.ntokens := by
          cases input with
          | nil => exact zz_closed.pos
          | cons t _ => exact zz_closed.num_lt t
        have hact := hst.2 _ hla
        simp only [LRCert.actOK] at hact
        have hw : ∀ p ∈ stk, 2 ≤ zzCert.weight p.1 := fun p hp' => hC.weights _ (path_lt hp p hp')
        cases ha : zzTables.act (topState stk) (nextNum ETok.num input) with
        | bad => rw [ha] at hact; simp at hact
        | error =>
          cases input with
          | nil => exact Does.pure (.refl _) (Or.inl ⟨rfl, rfl⟩)
          | cons t rest =>
            exact Does.seq (L' := evStackBlocks stk) (by simp) (etokVal_does t) (fun _ _ _ => Does.pure (.refl _) (Or.inl ⟨rfl, rfl⟩))
        | shift s =>
          rw [ha] at hact
          simp only [Bool.and_eq_true, decide_eq_true_eq, beq_iff_eq] at hact
          obtain ⟨⟨⟨⟨he, hsym⟩, hwt⟩, hz⟩, hlt⟩ := hact
          cases input with
          | nil =>
            have hs : s = zzTables.final := by simpa [nextNum] using hz
            have hp' : Path ETok.num zzCert EvFitM ((s, (EPVal.token, EMVal.plain)) :: stk) ws (nextNum ETok.num ([] : List ETok)) := by
              refine ⟨ws, [], by simp, ?_, he, hlt, hp⟩
              rw [hsym]; exact ⟨⟨rfl, rfl⟩, fun _ => rfl⟩
            exact (ih _ _ _ hp' (fun _ => rfl) (by
              simp only [stackWeight, List.map_cons, List.sum_cons, topState, hs, if_true, List.length_nil] at hfuel hwt ⊢; omega)).perm
                (by simp [evStackBlocks, EMVal.blocks])
          | cons t rest =>
            refine Does.seq (L' := evStackBlocks stk) (by simp) (etokVal_does t) fun w M hw' => ?_
            obtain ⟨hv, hM, hft⟩ := hw'
            have hs : s ≠ zzTables.final := by
              intro h
              simp only [h, beq_self_eq_true, beq_iff_eq, nextNum] at hz
              exact zz_closed.num_pos t hz
            have hp' : Path ETok.num zzCert EvFitM ((s, w) :: stk) (ws ++ [t]) (nextNum ETok.num rest) := by
              refine ⟨ws, [t], rfl, ?_, he, hlt, hp⟩
              rw [hsym]; exact ⟨hft, fun h0 => absurd h0 (zz_closed.num_pos t)⟩
            have key := ih _ _ _ hp' (fun h => absurd h hs) (by
              simp only [stackWeight, List.map_cons, List.sum_cons, topState, hs, if_false, List.length_cons] at hfuel hwt ⊢; omega)
            simp only [evPlainStack, List.map_cons, hv] at key
            refine key.perm ?_
            simp only [evStackBlocks, List.flatMap_cons]
            exact hM.append_right _
        | reduce r =>
          rw [ha, Bool.and_eq_true] at hact
          have hred : zzCert.reduceOK zzTables (topState stk) r = true := by
            have h2 := hact.2
            rw [Bool.or_eq_true, beq_iff_eq] at h2
            rcases h2 with h | h
            · rcases hst.1 with h' | h'
              · rw [h'] at h
                rw [← h] at hact
                simp at hact
              · rw [h] at h'; exact h'
            · exact h
          simp only [LRCert.reduceOK] at hred
          cases h1 : zzTables.r1[r]? with
          | none => rw [h1] at hred; simp at hred
          | some nt =>
          cases h2 : zzTables.r2[r]? with
          | none => rw [h1, h2] at hred; simp at hred
          | some len =>
            rw [h1, h2] at hred
            simp only [Bool.and_eq_true, beq_iff_eq, bne_iff_ne, ne_eq] at hred
            obtain ⟨⟨hlen, hne⟩, hb⟩ := hred
            obtain ⟨ws', ts, rfl, hl, hp1, hc, hk⟩ := path_pop hp hb (by
              intro X hX
              apply hC.bottom
              simp only [List.mem_reverse, LRCert.rule, List.getD_eq_getElem?_getD] at hX
              cases hr : zzCert.rhs[r]? with
              | none => simp [hr] at hX
              | some xs =>
                simp only [hr, Option.getD_some] at hX
                exact List.mem_flatten.mpr ⟨xs, List.mem_of_getElem? hr, hX⟩)
            rw [List.length_reverse, hlen] at hl hp1 hc hk
            rw [List.reverse_reverse] at hc
            have hr0 : r ≠ 0 := by simpa using hact.1
            have hr1 : r ≠ 1 := by
              rintro rfl
              obtain ⟨v0, w0, t0, r0, q0, _, rfl, m0, e0, y0, v1, w1, t1, r1, q1, _, rfl, m1, e1, y1, _, _, hq⟩ := hc
              exact hf (hq.trans (zz_after_eof y1))
            obtain ⟨v, hv, hdo⟩ := evAction_does hr0 hr1 (ev_chain_fits hc) h1
            have hsplit : (evStackBlocks stk).Perm
                ((((stk.take len).reverse.map Prod.snd).flatMap fun w => w.2.blocks) ++ evStackBlocks (stk.drop len)) := by
              conv_lhs => rw [← List.take_append_drop len stk]
              simp only [evStackBlocks, List.flatMap_append, List.flatMap_map]
              exact List.Perm.append_right _ (List.Perm.flatMap_right _ (List.reverse_perm _).symm)
            have hpl : ((evPlainStack stk).take len).reverse.map Prod.snd = ((stk.take len).reverse.map Prod.snd).map Prod.fst := by
              simp [evPlainStack, ← List.map_take, ← List.map_reverse, Function.comp_def]
            simp only [h1, h2, if_neg (Nat.not_lt.mpr hl), hpl, hv]
            have hdr : (evPlainStack stk).drop len = evPlainStack (stk.drop len) := by simp [evPlainStack, List.map_drop]
            simp only [hdr, topState_evPlain]
            refine Does.seq hsplit hdo fun w M hw' => ?_
            obtain ⟨hwv, hM, hft⟩ := hw'
            split at hk
            · simp at hk
            · rename_i g hg
              simp only [Bool.and_eq_true, decide_eq_true_eq, beq_iff_eq, bne_iff_ne, ne_eq] at hk
              obtain ⟨⟨⟨⟨he, hsym⟩, hgf⟩, hglt⟩, hgw⟩ := hk
              have hp' : Path ETok.num zzCert EvFitM ((g, w) :: stk.drop len) (ws' ++ ts) (nextNum ETok.num input) :=
                ⟨ws', ts, rfl, by rw [hsym]; exact ⟨hft, by
                  intro h0; subst h0
                  exact absurd (zz_after_eof hsym) (by intro h; exact hgf h)⟩, he, hglt, hp1⟩
              have hsp := stackWeight_split (Nat.pos_of_ne_zero hne) hl hw
              have key := ih _ _ _ hp' (fun h => absurd h hgf) (by
                simp only [stackWeight, List.map_cons, List.sum_cons] at hfuel hsp ⊢
                rw [if_neg (show ¬ topState ((g, w) :: stk.drop len) = zzTables.final from hgf)]
                omega)
              simp only [evPlainStack, List.map_cons, hwv] at key
              simp only [hg]
              refine key.perm ?_
              simp only [evStackBlocks, List.flatMap_cons]
              exact hM.append_right _

/-! ### `parse` -/

theorem parseEventMem_does (text : Str) : Does (parseEventMem text) [] (fun x M => (parseEventText text = .ok none ∧ x = none) ∨
    ∃ e i, parseEventText text = .ok (some e) ∧ x = some (e, i) ∧ FitsEvent e i ∧ M.Perm i.blocks) := by
  have key := lrMem_ev_sound (11 * ((lexEvent text).length + 1) + 2) [] (lexEvent text) [] rfl
    (fun h0 => absurd h0 (by decide)) (by
      simp only [stackWeight, List.map_nil, List.sum_nil]; split <;> omega)
  simp only [evPlainStack, List.map_nil, evStackBlocks, List.flatMap_nil] at key
  unfold parseEventMem
  refine Does.seq (L' := []) (by simp) key fun x M h => ?_
  rcases h with ⟨e1, rfl⟩ | ⟨e, i, e1, rfl, hn, hM⟩
  · exact Does.pure (.refl _) (Or.inl ⟨by simp only [parseEventText, parseEventTokens, e1], rfl⟩)
  · exact Does.pure (.refl _) (Or.inr ⟨e, i, by simp only [parseEventText, parseEventTokens, e1], rfl, hn, by simpa using hM⟩)

theorem parseEventMem_sound (text : Str) (h : Heap) (F : List Nat) (hh : Holds h F) :
    (parseEventText text = .ok none ∧ ∃ h' L, parseEventMem text h = .ok (none, h') ∧ Holds h' (L ++ F)) ∨
    ∃ e i h', parseEventText text = .ok (some e) ∧ parseEventMem text h = .ok (some (e, i), h') ∧ FitsEvent e i ∧
      Holds h' (i.blocks ++ F) := by
  obtain ⟨x, h', M, e0, q, hh'⟩ := (parseEventMem_does text).run h F hh
  rcases q with ⟨e1, rfl⟩ | ⟨e, i, e1, rfl, hn, hM⟩
  · exact Or.inl ⟨e1, h', M, e0, hh'⟩
  · exact Or.inr ⟨e, i, h', e1, e0, hn, hh'.perm (hM.append_right F)⟩

end BeTree
