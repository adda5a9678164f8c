import Verif.Model.MapFail
import Verif.Props.MapIter
/-
C71: string maps when memory runs out.
-/
namespace BeTree
variable {V : Type}

/-- Specification.  What a call does to a dictionary, when it returns 0 (`true`) or -1: nothing if it fails. -/
def TryOp.spec : TryOp V → Bool → (Str → Option V) → (Str → Option V)
  | .set _ _ k v, true, d => fun k' => if k' = k then some v else d k'
  | .set _ _ _ _, false, d => d
  | .remove k, _, d => fun k' => if k' = k then none else d k'

/-- Specification.  The dictionary after calls with these results. -/
def dictAfter : List (TryOp V) → List Bool → (Str → Option V) → (Str → Option V)
  | o :: os, r :: rs, d => dictAfter os rs (o.spec r d)
  | _, _, d => d

/-- Specification.  What a call may return: -1 only if it sets a key that is not there, and an allocation fails. -/
def TryOp.mayReturn : TryOp V → Bool → (Str → Option V) → Prop
  | .set node grow k _, false, d => d k = none ∧ (node = false ∨ grow = false)
  | .set node _ k _, true, d => d k = none → node = true
  | .remove _, r, _ => r = true

/-- Specification.  What the calls may return. -/
def MayReturn : List (TryOp V) → List Bool → (Str → Option V) → Prop
  | [], [], _ => True
  | o :: os, r :: rs, d => o.mayReturn r d ∧ MayReturn os rs (o.spec r d)
  | _, _, _ => False

/-- putting the nodes back -/
theorem rebucket_ok {hash : Str → Nat} {m : HMap V} (h : m.Ok hash) :
    ({ m with buckets := resize m.buckets m.buckets.length } : HMap V).Ok hash ∧
      ∀ k, ({ m with buckets := resize m.buckets m.buckets.length } : HMap V).get hash k = m.get hash k := by
  by_cases h0 : m.buckets.length = 0
  · have e : m.buckets = [] := List.length_eq_zero_iff.1 h0
    have e' : ({ m with buckets := resize m.buckets m.buckets.length } : HMap V) = m := by
      obtain ⟨b, n⟩ := m
      dsimp only at e
      subst e
      rfl
    rw [e']
    exact ⟨h, fun _ => rfl⟩
  · obtain ⟨h1, h2, h3⟩ := resize_spec h.placed m.buckets.length (by omega)
    have hd : ((resize m.buckets m.buckets.length).flatten.map MapNode.key).Nodup := by
      rw [(h3.map MapNode.key).nodup_iff]; exact h.distinct
    refine ⟨⟨h1, hd, by rw [h.count]; exact h3.length_eq.symm⟩, fun k => ?_⟩
    apply Option.ext
    intro w
    rw [get_iff h1 hd, get_iff h.placed h.distinct]
    constructor
    · rintro ⟨n, hn, e⟩; exact ⟨n, h3.mem_iff.1 hn, e⟩
    · rintro ⟨n, hn, e⟩; exact ⟨n, h3.mem_iff.2 hn, e⟩

theorem try_ok {hash : Str → Nat} {m : HMap V} (h : m.Ok hash) (o : TryOp V) :
    (o.run hash m).1.Ok hash ∧ (fun k => (o.run hash m).1.get hash k) = o.spec (o.run hash m).2 (fun k => m.get hash k) ∧
      o.mayReturn (o.run hash m).2 (fun k => m.get hash k) := by
  cases o with
  | remove k => exact ⟨(remove_ok h k).1, funext (remove_ok h k).2, rfl⟩
  | set node grow k v =>
    have good : (m.get hash k = none → node = true) → (m.set hash k v).Ok hash ∧
        (fun k' => (m.set hash k v).get hash k') = (TryOp.set node grow k v).spec true (fun k => m.get hash k) ∧
        (TryOp.set node grow k v).mayReturn true (fun k => m.get hash k) :=
      fun hn => ⟨(set_ok h k v).1, funext (set_ok h k v).2, hn⟩
    simp only [TryOp.run, HMap.trySet]
    split
    · rename_i w hg
      exact good fun hn => by rw [hg] at hn; cases hn
    · rename_i hg
      cases node with
      | false => exact ⟨h, rfl, hg, Or.inl rfl⟩
      | true =>
        rw [if_pos rfl]
        split
        · cases grow with
          | true => rw [if_pos rfl]; exact good fun _ => rfl
          | false =>
            rw [if_neg (by simp)]
            exact ⟨(rebucket_ok h).1, funext (rebucket_ok h).2, hg, Or.inr rfl⟩
        · exact good fun _ => rfl

theorem tries_ok (hash : Str → Nat) (ops : List (TryOp V)) :
    ∀ m : HMap V, m.Ok hash → (m.tries hash ops).1.Ok hash ∧
      (fun k => (m.tries hash ops).1.get hash k) = dictAfter ops (m.tries hash ops).2 (fun k => m.get hash k) ∧
      MayReturn ops (m.tries hash ops).2 (fun k => m.get hash k) := by
  induction ops with
  | nil => intro m h; exact ⟨h, rfl, trivial⟩
  | cons o os ih =>
    intro m h
    obtain ⟨h1, h2, h3⟩ := try_ok h o
    obtain ⟨i1, i2, i3⟩ := ih _ h1
    simp only [HMap.tries, dictAfter, MayReturn]
    rw [h2] at i2 i3
    exact ⟨i1, i2, h3, i3⟩

/-- C71.  For every sequence of `map_set` and `map_remove` calls on a fresh map, every hash function and every choice of the allocations that fail:
`map_set` returns -1 only for a key that is not there, and if an allocation failed; afterwards `map_get` answers like the dictionary in which exactly
the calls that returned 0 had their effect, and the count is the number of its keys. -/
theorem C71_failing_allocations (hash : Str → Nat) (ops : List (TryOp V)) :
    MayReturn ops (HMap.empty.tries hash ops).2 (fun _ => none) ∧
      (∀ k, (HMap.empty.tries hash ops).1.get hash k = dictAfter ops (HMap.empty.tries hash ops).2 (fun _ => none) k) ∧
      ∃ keys : List Str, keys.Nodup ∧ keys.length = (HMap.empty.tries hash ops).1.nnodes ∧
        ∀ k, k ∈ keys ↔ (HMap.empty.tries hash ops).1.get hash k ≠ none := by
  obtain ⟨h1, h2, h3⟩ := tries_ok hash ops HMap.empty (empty_ok hash)
  have e : (fun k => (HMap.empty : HMap V).get hash k) = fun _ => none := by
    funext k; simp [HMap.get, HMap.empty]
  rw [e] at h2 h3
  refine ⟨h3, fun k => congrFun h2 k, _, h1.distinct, by rw [List.length_map, h1.count], fun k => ?_⟩
  rw [List.mem_map]
  constructor
  · rintro ⟨n, hn, hk⟩ hnone
    rw [(get_iff h1.placed h1.distinct k n.value).2 ⟨n, hn, hk, rfl⟩] at hnone
    cases hnone
  · intro hne
    cases hg : (HMap.empty.tries hash ops).1.get hash k with
    | none => exact absurd hg hne
    | some v =>
      obtain ⟨n, hn, hk, _⟩ := (get_iff h1.placed h1.distinct k v).1 hg
      exact ⟨n, hn, hk⟩

theorem tries_length (hash : Str → Nat) (ops : List (TryOp V)) :
    ∀ (m : HMap V) (b : Nat), m.Ok hash → m.nnodes ≤ b → m.buckets.length ≤ 2 * b →
      (m.tries hash ops).1.buckets.length ≤ 2 * (b + ops.length) := by
  induction ops with
  | nil => intro m b _ _ h; exact h
  | cons o ops ih =>
    intro m b h h1 h2
    have key : (o.run hash m).1.nnodes ≤ b + 1 ∧ (o.run hash m).1.buckets.length ≤ 2 * (b + 1) := by
      cases o with
      | set node grow k v =>
        have l1 := set_length hash m k v h
        have l2 := set_nnodes hash m k v
        have hset : (m.set hash k v).nnodes ≤ b + 1 ∧ (m.set hash k v).buckets.length ≤ 2 * (b + 1) := ⟨by omega, by omega⟩
        have l3 : (resize m.buckets m.buckets.length).length = m.buckets.length := by
          by_cases h0 : m.buckets.length = 0
          · rw [List.length_eq_zero_iff.1 h0]; rfl
          · exact (resize_spec h.placed m.buckets.length (by omega)).2.1
        simp only [TryOp.run, HMap.trySet]
        split
        · exact hset
        · split
          · split
            · split
              · exact hset
              · exact ⟨by dsimp only; omega, by dsimp only; omega⟩
            · exact hset
          · exact ⟨by dsimp only; omega, by dsimp only; omega⟩
      | remove k =>
        have l := remove_size hash m k
        exact ⟨by simp only [TryOp.run]; omega, by simp only [TryOp.run]; omega⟩
    have := ih _ _ (try_ok h o).1 key.1 key.2
    simp only [HMap.tries, List.length_cons]
    omega

/-- C71, going through the keys: afterwards calls of `map_next` return each key of that dictionary once, and then `NULL`. -/
theorem C71_iteration (hash : Str → Nat) (ops : List (TryOp V)) (hops : ops.length < 2 ^ 31) :
    ∃ keys : List Str, keys.Nodup ∧
      (∀ k, k ∈ keys ↔ dictAfter ops (HMap.empty.tries hash ops).2 (fun _ => none) k ≠ none) ∧
      (HMap.empty.tries hash ops).1.nexts .start (keys.length + 1) = keys.map some ++ [none] := by
  have h := (tries_ok hash ops HMap.empty (empty_ok hash)).1
  have hl := tries_length hash ops HMap.empty 0 (empty_ok hash) (Nat.le_refl 0) (Nat.le_refl 0)
  have hd := (C71_failing_allocations hash ops).2.1
  refine ⟨(HMap.empty.tries hash ops).1.buckets.flatten.map MapNode.key, h.distinct, fun k => ?_, ?_⟩
  · rw [← hd, List.mem_map]
    constructor
    · rintro ⟨n, hn, hk⟩ hnone
      rw [(get_iff h.placed h.distinct k n.value).2 ⟨n, hn, hk, rfl⟩] at hnone
      cases hnone
    · intro hne
      cases hg : (HMap.empty.tries hash ops).1.get hash k with
      | none => exact absurd hg hne
      | some v =>
        obtain ⟨n, hn, hk, _⟩ := (get_iff h.placed h.distinct k v).1 hg
        exact ⟨n, hn, hk⟩
  · rw [List.length_map, nexts_todo (by omega) _ MapIter.start (by simp [MapIter.todo, MapIter.start]), List.map_map]
    rfl

/-- allocations of both kinds fail; the keys set before are still there, and a key that is there can be set without memory -/
example :
    let ops : List (TryOp Nat) := [.set true true "a".toList 0, .set true true "b".toList 1, .set false true "c".toList 2,
      .set true false "c".toList 3, .set false false "a".toList 4, .set true true "c".toList 5]
    let r := HMap.empty.tries mapHash ops
    r.2 = [true, true, false, false, true, true] ∧ r.1.get mapHash "a".toList = some 4 ∧ r.1.get mapHash "b".toList = some 1 ∧
      r.1.get mapHash "c".toList = some 5 ∧ r.1.nnodes = 3 := by
  decide +kernel

end BeTree
