import Verif.Lemmas.MemWorld
/-
C58: memory.
-/
namespace BeTree
open Spec

/-- C58: `parse` never frees a block it does not own.  When it succeeds, what it leaves allocated are exactly the blocks reached from the
expression, of which there are as many as the expression has nodes, names, strings and lists. -/
theorem C58_parse_owned (text : Str) (e : Expr) (h : Heap) (hh : Holds h h.live) (hp : parseText text = .ok (some e)) :
    ∃ i h', parseMem text h = .ok (some (e, i), h') ∧ h'.live.Perm (i.blocks ++ h.live) ∧ h'.live.Nodup ∧
      i.blocks.length = exprBlocks e := by
  rcases parseMem_sound text h _ hh with ⟨e1, _⟩ | ⟨e', i, h', e1, e2, hn, hh'⟩
  · rw [e1] at hp; cases hp
  · rw [e1] at hp; cases hp
    exact ⟨i, h', e2, hh'.1, hh'.1.nodup_iff.mpr hh'.2.1, hn⟩

/-- C58: and when it refuses the text, every block that was allocated before still is. -/
theorem C58_parse_refused (text : Str) (h : Heap) (hh : Holds h h.live) (hp : parseText text = .ok none) :
    ∃ h' L, parseMem text h = .ok (none, h') ∧ h'.live.Perm (L ++ h.live) ∧ h'.live.Nodup := by
  rcases parseMem_sound text h _ hh with ⟨_, h', L, e2, hh'⟩ | ⟨e', i, h', e1, _⟩
  · exact ⟨h', L, e2, hh'.1, hh'.1.nodup_iff.mpr hh'.2.1⟩
  · rw [e1] at hp; cases hp

/-- C58: freeing an expression that was parsed gives back every block that parsing it took, none of them twice. -/
theorem C58_parse_free (text : Str) (e : Expr) (h : Heap) (hh : Holds h h.live) (hp : parseText text = .ok (some e)) :
    ∃ i h' h'', parseMem text h = .ok (some (e, i), h') ∧ freeAst i h' = .ok ((), h'') ∧ h''.live.Perm h.live := by
  rcases parseMem_sound text h _ hh with ⟨e1, _⟩ | ⟨e', i, h', e1, e2, hn, hh'⟩
  · rw [e1] at hp; cases hp
  · rw [e1] at hp; cases hp
    obtain ⟨a, h'', L', e3, rfl, hh''⟩ := Does.run (freeAst_does i) h' _ hh'
    exact ⟨i, h', h'', e2, e3, hh''.1⟩

/-- C58 over histories: whatever is called, with subscriptions made under different ids and each built subscription inserted at most once,
no call and not the final freeing of the tree reads or frees a block that is not allocated, and the blocks that were there before are
still there.  If all texts parse, the insertions in one step have their constants, and all built subscriptions were inserted, then
nothing else is left. -/
theorem C58_calls_partial (R : Rounding) (cap min : Nat) (decls : List (Str × Decl × Bool)) (ops : List MemOp) (t : TextWorld)
    (h : Heap) (hh : Holds h h.live) (hrun : (TextWorld.init (makeTree cap min decls)).plainRun R ops = .ok t)
    (hids : (newIds ops).Nodup) (honce : (insertedSubs ops).Nodup) :
    ∃ w h1 h2, (MemWorld.init (makeTree cap min decls)).run R ops h = .ok (w, h1) ∧ w.world = t ∧ w.freeTree h1 = .ok ((), h2) ∧
      (∃ L, h2.live.Perm (L ++ h.live)) ∧
      ((∀ o ∈ ops, Clean o) → (∀ k < t.pool.length, k ∈ doneIn R (TextWorld.init (makeTree cap min decls)) ops) →
        h2.live.Perm h.live) := by
  have hw : Owned (MemWorld.init (makeTree cap min decls)) [] [] [] [] := by
    refine ⟨.refl _, List.nodup_nil, ?_, by simp [MemWorld.init], by simp [MemWorld.init, TextWorld.init],
      by simp [MemWorld.init, TextWorld.init], by simp, by simp⟩
    simp [MemWorld.init, TextWorld.init, makeTree, emptyCNode, CNode.contents, PNodes.contents]
  have ha : Ahead (MemWorld.init (makeTree cap min decls)) [] ops :=
    ⟨hids, by simp [MemWorld.init], honce, by simp [MemWorld.init, TextWorld.init]⟩
  obtain ⟨w, h1, M, e1, ⟨rfl, st, wt, gn, L, dn, hdn, hM, hw1, hc⟩, hh1⟩ := Does.run (run_owned (L := []) ops hw ha hrun) h h.live (by simpa [Objs.flat] using hh)
  have hh2 : Holds h1 (Objs.flat st ++ (Objs.flat wt ++ L ++ h.live)) := by
    refine hh1.perm ((hM.append_right _).trans ?_)
    rw [flat_append]
    blocks
  obtain ⟨_, h2, _, e2, rfl, hh3⟩ := Does.run hw1.free h1 _ hh2
  refine ⟨w, h1, h2, e1, rfl, e2, ⟨_, hh3.1⟩, fun hcl hdone => ?_⟩
  have hwt : wt = [] := by
    cases wt with
    | nil => rfl
    | cons p ps =>
      obtain ⟨k, x, hk, _, hn⟩ := hw1.waits p (by simp)
      obtain ⟨hlt, _⟩ := List.getElem?_eq_some_iff.mp hk
      exact absurd (by simpa using (hdn k).mpr (hdone k hlt)) hn
  subst hwt
  have := hh3.1
  rw [hc hcl] at this
  simpa [Objs.flat] using this

/-! ### examples, and where memory is lost -/

/-- nothing allocated -/
def noHeap : Heap := ⟨0, []⟩

theorem noHeap_holds : Holds noHeap noHeap.live := ⟨.refl _, List.nodup_nil, by simp [noHeap]⟩

def memDecls : List (Str × Decl × Bool) :=
  [("i".toList, .int 0 10, false), ("b".toList, .bool, true), ("s".toList, .string 2, true), ("frequency_caps".toList, .freq, true),
   ("now".toList, .int 0 1000, true)]

/-- how many blocks are left after these calls and the freeing of the tree; or what went wrong on the way -/
def blocksLeft (ops : List MemOp) : Nat ⊕ Fault :=
  match ((do
    let w ← (MemWorld.init (makeTree 1 0 memDecls)).run exactRounding ops
    w.freeTree : Mem Unit)) noHeap with
  | .error x => .inr x
  | .ok (_, h) => .inl h.live.length

def memReq (id : Nat) (text : String) : TextReq := ⟨id, [], text.toList⟩

/-- the two ways of inserting, a refused expression, boundaries, searches, and the tree emptied in between -/
def memOps : List MemOp :=
  [.call (.insert (memReq 1 "i < 3 and not (s in ('a', 'b'))")), .call (.makeSub (memReq 2 "i > 7 or b")), .search, .call (.insertSub 0),
   .call (.insert (memReq 3 "z = 1")), .call (.changeBoundaries "i = 4".toList), .search, .empty, .call (.insert (memReq 4 "i = 1")),
   .call (.insert (memReq 5 "i = 2")), .search]

example : parseText "i < 3 and not (s in ('a', 'b'))".toList ≠ .ok none := by decide +kernel

/-- the texts of the example parse and have no frequency caps -/
def cleanB : MemOp → Bool
  | .call (.insert q) => match parseText q.text with | .ok (some e) => (caps e).isEmpty | _ => false
  | .call (.makeSub q) => match parseText q.text with | .ok (some _) => true | _ => false
  | .call (.changeBoundaries text) => match parseText text with | .ok (some _) => true | _ => false
  | _ => true

theorem clean_of_check {o : MemOp} (h : cleanB o = true) : Clean o := by
  cases o with
  | call o =>
    cases o with
    | insert q =>
      simp only [cleanB] at h
      split at h
      · rename_i e he
        refine ⟨e, he, ?_⟩
        rw [List.isEmpty_iff.mp h]
        simp
      · cases h
    | makeSub q =>
      simp only [cleanB] at h
      split at h
      · rename_i e he
        exact ⟨e, he⟩
      · cases h
    | insertSub k => trivial
    | changeBoundaries text =>
      simp only [cleanB] at h
      split at h
      · rename_i e he
        exact ⟨e, he⟩
      · cases h
  | search => trivial
  | empty => trivial

/-- all conditions of the theorem are met by these calls, and in the end nothing is left -/
example : ∃ t, (TextWorld.init (makeTree 1 0 memDecls)).plainRun exactRounding memOps = .ok t ∧ (newIds memOps).Nodup ∧
    (insertedSubs memOps).Nodup ∧ (∀ o ∈ memOps, Clean o) ∧
    (∀ k < t.pool.length, k ∈ doneIn exactRounding (TextWorld.init (makeTree 1 0 memDecls)) memOps) := by
  have h : (match (TextWorld.init (makeTree 1 0 memDecls)).plainRun exactRounding memOps with
      | .ok t => decide (t.pool.length = 1)
      | .error _ => false) = true := by decide +kernel
  have hd : 0 ∈ doneIn exactRounding (TextWorld.init (makeTree 1 0 memDecls)) memOps := by decide +kernel
  have hc : memOps.all cleanB = true := by decide +kernel
  split at h
  · rename_i t ht
    refine ⟨t, ht, by decide +kernel, by decide +kernel, fun o ho => clean_of_check (List.all_eq_true.mp hc o ho), ?_⟩
    intro k hk
    have h1 : t.pool.length = 1 := by simpa using h
    obtain rfl : k = 0 := by omega
    exact hd
  · cases h

example : blocksLeft memOps = .inl 0 := by decide +kernel

end BeTree
