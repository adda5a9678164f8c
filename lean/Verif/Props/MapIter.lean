import Verif.Model.MapIter
import Verif.Props.StrMap
/-
C40: going through the keys of a string map.
-/
namespace BeTree
variable {V : Type}

theorem nextBucket_spec (bs : List (List (MapNode V))) (i : Nat) :
    (bs.drop i).flatten = (nextBucket bs i).node ++ (bs.drop ((nextBucket bs i).bucketidx + 1)).flatten ∧
      ((nextBucket bs i).node ≠ [] → (nextBucket bs i).bucketidx < bs.length) ∧ ((nextBucket bs i).node = [] → (bs.drop i).flatten = []) := by
  fun_induction nextBucket bs i with
  | case1 i h hb ih =>
    rw [List.drop_eq_getElem_cons h, List.flatten_cons, hb, List.nil_append]
    exact ih
  | case2 i h n ns hb =>
    refine ⟨?_, fun _ => h, fun h => by cases h⟩
    conv => lhs; rw [List.drop_eq_getElem_cons h, List.flatten_cons, hb]
  | case3 i h =>
    have e : bs.drop i = [] := List.drop_eq_nil_of_le (by omega)
    have e' : bs.drop (i + 1) = [] := List.drop_eq_nil_of_le (by omega)
    dsimp only
    rw [e, e']
    exact ⟨rfl, fun h => absurd rfl h, fun _ => rfl⟩

/-- the nodes still to come -/
def MapIter.todo (m : HMap V) (it : MapIter V) : List (MapNode V) :=
  it.node.drop 1 ++ (m.buckets.drop ((it.bucketidx + 1) % 2 ^ 32)).flatten

theorem next_todo {m : HMap V} (hm : m.buckets.length < 2 ^ 32) (it : MapIter V) :
    match it.todo m with
    | [] => (m.next it).2 = none
    | n :: ns => (m.next it).2 = some n.key ∧ (m.next it).1.todo m = ns := by
  have jump : ∀ i, match (m.buckets.drop i).flatten with
      | [] => (nextBucket m.buckets i).node = []
      | n :: ns => (nextBucket m.buckets i).node.head? = some n ∧ (nextBucket m.buckets i).todo m = ns := by
    intro i
    obtain ⟨h1, h2, h3⟩ := nextBucket_spec m.buckets i
    cases hn : (nextBucket m.buckets i).node with
    | nil =>
      rw [h3 hn]
    | cons n ns =>
      have hi := h2 (by rw [hn]; simp)
      rw [h1, hn]
      dsimp only [List.cons_append]
      refine ⟨rfl, ?_⟩
      rw [MapIter.todo, hn, Nat.mod_eq_of_lt (by omega)]
      rfl
  unfold HMap.next
  obtain ⟨idx, node⟩ := it
  have hj := jump ((idx + 1) % 2 ^ 32)
  match node with
  | [] =>
    simp only [MapIter.todo, List.drop_nil, List.nil_append]
    cases e : (m.buckets.drop ((idx + 1) % 2 ^ 32)).flatten with
    | nil => rw [e] at hj; dsimp only at hj ⊢; rw [hj]; rfl
    | cons n ns => rw [e] at hj; dsimp only at hj ⊢; rw [hj.1]; exact ⟨rfl, hj.2⟩
  | [a] =>
    simp only [MapIter.todo, List.drop_succ_cons, List.drop_nil, List.nil_append]
    cases e : (m.buckets.drop ((idx + 1) % 2 ^ 32)).flatten with
    | nil => rw [e] at hj; dsimp only at hj ⊢; rw [hj]; rfl
    | cons n ns => rw [e] at hj; dsimp only at hj ⊢; rw [hj.1]; exact ⟨rfl, hj.2⟩
  | a :: n :: ns =>
    simp only [MapIter.todo, List.drop_succ_cons, List.drop_zero, List.cons_append]
    exact ⟨rfl, trivial⟩

theorem nexts_todo {m : HMap V} (hm : m.buckets.length < 2 ^ 32) (ns : List (MapNode V)) :
    ∀ it : MapIter V, it.todo m = ns → m.nexts it (ns.length + 1) = ns.map (fun n => some n.key) ++ [none] := by
  induction ns with
  | nil =>
    intro it h
    have := next_todo hm it
    rw [h] at this
    simp only [List.length_nil, HMap.nexts, this]
    rfl
  | cons n ns ih =>
    intro it h
    have := next_todo hm it
    rw [h] at this
    rw [List.length_cons, HMap.nexts, this.1, ih _ this.2]
    rfl

theorem set_length (hash : Str → Nat) (m : HMap V) (k : Str) (v : V) (h : m.Ok hash) :
    (m.set hash k v).buckets.length ≤ max m.buckets.length (2 * m.nnodes + 1) := by
  unfold HMap.set
  split
  · simp only [List.length_modify]; omega
  · dsimp only
    rw [addNode_length]
    split
    · rename_i hr
      rw [(resize_spec h.placed _ (by split <;> omega)).2.1]
      split <;> omega
    · omega

theorem set_nnodes (hash : Str → Nat) (m : HMap V) (k : Str) (v : V) : (m.set hash k v).nnodes ≤ m.nnodes + 1 := by
  unfold HMap.set
  split
  · exact Nat.le_succ _
  · exact Nat.le_refl _

theorem remove_size (hash : Str → Nat) (m : HMap V) (k : Str) :
    (m.remove hash k).buckets.length = m.buckets.length ∧ (m.remove hash k).nnodes ≤ m.nnodes := by
  unfold HMap.remove
  split
  · exact ⟨rfl, Nat.le_refl _⟩
  · exact ⟨by simp, Nat.sub_le _ _⟩

theorem run_length (hash : Str → Nat) (ops : List (MapOp V)) :
    ∀ (m : HMap V) (b : Nat), m.Ok hash → m.nnodes ≤ b → m.buckets.length ≤ 2 * b →
      (ops.foldl (fun m o => o.run hash m) m).buckets.length ≤ 2 * (b + ops.length) := by
  induction ops with
  | nil => intro m b _ _ h; exact h
  | cons o ops ih =>
    intro m b h h1 h2
    rw [List.foldl_cons, List.length_cons]
    have key : (o.run hash m).Ok hash ∧ (o.run hash m).nnodes ≤ b + 1 ∧ (o.run hash m).buckets.length ≤ 2 * (b + 1) := by
      cases o with
      | set k v =>
        have l1 := set_length hash m k v h
        have l2 := set_nnodes hash m k v
        exact ⟨(set_ok h k v).1, by simp only [MapOp.run]; omega, by simp only [MapOp.run]; omega⟩
      | remove k =>
        have l := remove_size hash m k
        exact ⟨(remove_ok h k).1, by simp only [MapOp.run]; omega, by simp only [MapOp.run]; omega⟩
    have := ih _ _ key.1 key.2.1 key.2.2
    omega

/-- C40, going through the keys: after any sequence of `map_set` and `map_remove` on a fresh map (fewer than 2^31, so that `nbuckets` does not
overflow), calls of `map_next` with a new iterator return each key that is there once, and then `NULL`. -/
theorem C40_iteration (hash : Str → Nat) (ops : List (MapOp V)) (hops : ops.length < 2 ^ 31) :
    ∃ keys : List Str, keys.Nodup ∧
      (∀ k, k ∈ keys ↔ ops.foldl (fun d o => o.spec d) (fun _ => (none : Option V)) k ≠ none) ∧
      (ops.foldl (fun m o => o.run hash m) HMap.empty).nexts .start (keys.length + 1) = keys.map some ++ [none] := by
  have h := (run_ok hash ops HMap.empty (empty_ok hash)).1
  have hl := run_length hash ops HMap.empty 0 (empty_ok hash) (Nat.le_refl 0) (Nat.le_refl 0)
  simp only [← C40_map_refines_dictionary hash ops]
  generalize ops.foldl (fun m o => o.run hash m) HMap.empty = m at h hl
  refine ⟨m.buckets.flatten.map MapNode.key, h.distinct, fun k => ?_, ?_⟩
  · rw [List.mem_map]
    constructor
    · rintro ⟨n, hn, hk⟩ hnone
      rw [(get_iff h.placed h.distinct k n.value).2 ⟨n, hn, hk, rfl⟩] at hnone
      cases hnone
    · intro hne
      cases hg : m.get hash k with
      | none => exact absurd hg hne
      | some v =>
        obtain ⟨n, hn, hk, _⟩ := (get_iff h.placed h.distinct k v).1 hg
        exact ⟨n, hn, hk⟩
  · rw [List.length_map, nexts_todo (by omega) _ MapIter.start (by simp [MapIter.todo, MapIter.start]), List.map_map]
    rfl

/-- three keys, two of them in one bucket -/
example :
    let ops : List (MapOp Nat) := [.set "a".toList 0, .set "b".toList 1, .set "c".toList 2, .set "a".toList 7, .remove "b".toList, .set "e".toList 5]
    (ops.foldl (fun m o => o.run mapHash m) HMap.empty).nexts .start 5 =
      [some "e".toList, some "a".toList, some "c".toList, none, none] := by
  decide +kernel

end BeTree
