import Verif.Lemmas.EventWorld
import Verif.Props.Memory
/-
C59: memory of events, searches and reports.
-/
namespace BeTree
open Spec

/-- C59: when the text of an event is read, what is left allocated are exactly the blocks reached from the event, of which there are as
many as its structures, names, strings and lists; and `free_event` gives them all back, none of them twice. -/
theorem C59_parse (text : Str) (ev : List EventVar) (h : Heap) (hh : Holds h h.live) (hp : parseEventText text = .ok (some ev)) :
    ∃ i h' h'', parseEventMem text h = .ok (some (ev, i), h') ∧ h'.live.Perm (i.blocks ++ h.live) ∧ h'.live.Nodup ∧
      i.blocks.length = eventBlocks ev ∧ freeEvent i h' = .ok ((), h'') ∧ h''.live.Perm h.live := by
  rcases parseEventMem_sound text h _ hh with ⟨e1, _⟩ | ⟨e', i, h', e1, e2, hn, hh'⟩
  · rw [e1] at hp; cases hp
  · rw [e1] at hp; cases hp
    obtain ⟨a, h'', L', e3, rfl, hh''⟩ := Does.run (freeEvent_does i) h' _ hh'
    exact ⟨i, h', h'', e2, hh'.1, hh'.1.nodup_iff.mpr hh'.2.1, fitsEvent_blocks hn, e3, hh''.1⟩

/-- C59: and when the text is refused, every block that was allocated before still is. -/
theorem C59_parse_refused (text : Str) (h : Heap) (hh : Holds h h.live) (hp : parseEventText text = .ok none) :
    ∃ h' L, parseEventMem text h = .ok (none, h') ∧ h'.live.Perm (L ++ h.live) ∧ h'.live.Nodup := by
  rcases parseEventMem_sound text h _ hh with ⟨_, h', L, e2, hh'⟩ | ⟨e', i, h', e1, _⟩
  · exact ⟨h', L, e2, hh'.1, hh'.1.nodup_iff.mpr hh'.2.1⟩
  · rw [e1] at hp; cases hp

/-- C59: an event that is read and then prepared for a tree (its names looked up, its lists sorted and their repetitions dropped) is still
freed completely: what was dropped was freed once, and the rest is freed by `free_event`. -/
theorem C59_prepare_free (cfg : Config) (text : Str) (ev : List EventVar) (vars : List (Nat × Value)) (h : Heap) (hh : Holds h h.live)
    (hp : eventFromString text = .ok ev) (hf : fillEvent cfg ev = .ok vars) :
    ∃ vs i h' h'', eventFromStringMem cfg text h = .ok ((vs, i), h') ∧ h'.live.Perm (i.blocks ++ h.live) ∧
      freeEvent i h' = .ok ((), h'') ∧ h''.live.Perm h.live := by
  obtain ⟨⟨vs, i⟩, h', M, e1, ⟨_, hM⟩, hh'⟩ := Does.run (eventFromString_does hp hf) h h.live hh
  have hh2 : Holds h' (i.blocks ++ h.live) := hh'.perm (hM.append_right _)
  obtain ⟨a, h'', L', e3, rfl, hh''⟩ := Does.run (freeEvent_does i) h' _ hh2
  exact ⟨vs, i, h', h'', e1, hh2.1, e3, hh''.1⟩

/-- C59 over histories of calls with searches between them, each report filled by any number of searches: with subscriptions made under
different ids and each built subscription inserted at most once, the answers are those of the code without memory, and no call and not
the final freeing of the tree reads or frees a block that is not allocated, and the blocks that were there before are still there.  If
all texts parse, the insertions in one step have their constants, all built subscriptions were inserted, and no search was turned down,
then nothing else is left. -/
theorem C59_calls_partial (geo : GeoTest) (R : Rounding) (cap min : Nat) (decls : List (Str × Decl × Bool)) (ops : List UserOp)
    (t : TextWorld) (answers : List Answer) (h : Heap) (hh : Holds h h.live)
    (hrun : (TextWorld.init (makeTree cap min decls)).userRun geo R ops = .ok (t, answers))
    (hids : (newIds (treeOps ops)).Nodup) (honce : (insertedSubs (treeOps ops)).Nodup) :
    ∃ w h1 h2, (MemWorld.init (makeTree cap min decls)).userRun geo R ops h = .ok ((w, answers), h1) ∧ w.world = t ∧
      w.freeTree h1 = .ok ((), h2) ∧ (∃ L, h2.live.Perm (L ++ h.live)) ∧
      ((∀ o ∈ treeOps ops, Clean o) →
        (∀ k < t.pool.length, k ∈ doneIn R (TextWorld.init (makeTree cap min decls)) (treeOps ops)) →
        (∀ a ∈ answers, Answered a) → h2.live.Perm h.live) := by
  have hw : Owned (MemWorld.init (makeTree cap min decls)) [] [] [] [] := by
    refine ⟨.refl _, List.nodup_nil, ?_, by simp [MemWorld.init], by simp [MemWorld.init, TextWorld.init],
      by simp [MemWorld.init, TextWorld.init], by simp, by simp⟩
    simp [MemWorld.init, TextWorld.init, makeTree, emptyCNode, CNode.contents, PNodes.contents]
  have ha : Ahead (MemWorld.init (makeTree cap min decls)) [] (treeOps ops) :=
    ⟨hids, by simp [MemWorld.init], honce, by simp [MemWorld.init, TextWorld.init]⟩
  obtain ⟨⟨w, as⟩, h1, M, e1, ⟨rfl, rfl, st, wt, gn, L, dn, hdn, hM, hw1, hc⟩, hh1⟩ :=
    Does.run (userRun_owned (L := []) ops hw ha hrun) h h.live (by simpa [Objs.flat] using hh)
  have hh2 : Holds h1 (Objs.flat st ++ (Objs.flat wt ++ L ++ h.live)) := by
    refine hh1.perm ((hM.append_right _).trans ?_)
    rw [flat_append]
    blocks
  obtain ⟨_, h2, _, e2, rfl, hh3⟩ := Does.run hw1.free h1 _ hh2
  refine ⟨w, h1, h2, e1, rfl, e2, ⟨_, hh3.1⟩, fun hcl hdone han => ?_⟩
  have hwt : wt = [] := by
    cases wt with
    | nil => rfl
    | cons p ps =>
      obtain ⟨k, x, hk, _, hn⟩ := hw1.waits p (by simp)
      obtain ⟨hlt, _⟩ := List.getElem?_eq_some_iff.mp hk
      exact absurd (by simpa using (hdn k).mpr (hdone k hlt)) hn
  subst hwt
  have := hh3.1
  rw [hc hcl han] at this
  simpa [Objs.flat] using this

/-! ### examples, and where memory is lost -/

def memEvent : String := "{\"i\": 2, \"b\": true, \"s\": \"a\", \"frequency_caps\": [[\"flight\", 1, \"ns\", 3, 4]], \"now\": 5}"

example : (match parseEventText memEvent.toList with
    | .ok (some ev) => decide (eventBlocks ev = 2 + 10 + 1 + 4)
    | _ => false) = true := by decide +kernel

example : parseEventText "{\"i\": }".toList = .ok none := by decide +kernel

def memEventDecls : List (Str × Decl × Bool) :=
  [("i".toList, .int 0 10, false), ("b".toList, .bool, true), ("s".toList, .string 2, true), ("l".toList, .strList 5, true)]

/-- a list with repetitions is made shorter -/
example : (match eventFromString "{\"i\": 2, \"l\": [\"b\", \"a\", \"b\"]}".toList with
    | .ok ev => match fillEvent (makeTree 1 0 memEventDecls).cfg ev with
      | .ok _ => true
      | .error _ => false
    | .error _ => false) = true := by decide +kernel

/-- how many blocks are left after these calls and the freeing of the tree; or what went wrong on the way -/
def userBlocksLeft (ops : List UserOp) : Nat ⊕ Fault :=
  match ((do
    let w ← (MemWorld.init (makeTree 1 0 memEventDecls)).userRun exGeo exactRounding ops
    w.1.freeTree : Mem Unit)) noHeap with
  | .error x => .inr x
  | .ok (_, h) => .inl h.live.length

/-- subscriptions in two ways, a report filled twice, a question whether anything matches, and a list with repetitions -/
def memUserOps : List UserOp :=
  [.tree (.call (.insert (memReq 1 "i < 3 and not (s in ('a', 'b'))"))), .tree (.call (.makeSub (memReq 2 "l one of ('a', 'c') or b"))),
   .search ["{\"i\": 2}".toList], .tree (.call (.insertSub 0)),
   .search ["{\"i\": 2, \"s\": \"c\", \"l\": [\"a\", \"b\", \"a\"]}".toList, "{\"i\": 7, \"b\": true}".toList],
   .exists "{\"i\": 1, \"s\": \"b\"}".toList]

/-- all conditions of the theorem are met by these calls, and in the end nothing is left -/
example : ∃ t as, (TextWorld.init (makeTree 1 0 memEventDecls)).userRun exGeo exactRounding memUserOps = .ok (t, as) ∧
    (newIds (treeOps memUserOps)).Nodup ∧ (insertedSubs (treeOps memUserOps)).Nodup ∧ (∀ o ∈ treeOps memUserOps, Clean o) ∧
    (∀ k < t.pool.length, k ∈ doneIn exactRounding (TextWorld.init (makeTree 1 0 memEventDecls)) (treeOps memUserOps)) ∧
    (∀ a ∈ as, Answered a) := by
  have h : (match (TextWorld.init (makeTree 1 0 memEventDecls)).userRun exGeo exactRounding memUserOps with
      | .ok (t, as) => decide (t.pool.length = 1) && as.all fun a => match a with
        | .report _ bs => bs.all id
        | .found _ => true
      | .error _ => false) = true := by decide +kernel
  have hd : 0 ∈ doneIn exactRounding (TextWorld.init (makeTree 1 0 memEventDecls)) (treeOps memUserOps) := by decide +kernel
  have hc : (treeOps memUserOps).all cleanB = true := by decide +kernel
  split at h
  · rename_i t as ht
    rw [Bool.and_eq_true, List.all_eq_true] at h
    refine ⟨t, as, ht, by decide +kernel, by decide +kernel, fun o ho => clean_of_check (List.all_eq_true.mp hc o ho), ?_, ?_⟩
    · intro k hk
      have h1 : t.pool.length = 1 := by simpa using h.1
      obtain rfl : k = 0 := by omega
      exact hd
    · intro a ha
      have := h.2 a ha
      cases a with
      | report r bs => intro hf; exact absurd (List.all_eq_true.mp this _ hf) (by simp)
      | found b => trivial
  · cases h

example : userBlocksLeft memUserOps = .inl 0 := by decide +kernel

/-- A search that is turned down because a mandatory variable is missing leaves one block behind, the table of the variables, each time. -/
theorem C59_missing_variable_leaks :
    userBlocksLeft [.search ["{\"b\": true}".toList]] = .inl 1 ∧
    userBlocksLeft [.search ["{\"b\": true}".toList, "{\"s\": \"a\"}".toList], .search ["{\"b\": true}".toList]] = .inl 3 ∧
    userBlocksLeft [.exists "{\"b\": true}".toList] = .inl 0 := by
  refine ⟨?_, ?_, ?_⟩ <;> decide +kernel

end BeTree
