import Verif.Model.StrMap
/-
C40: the string hash map implements a dictionary, for every hash function, across collisions, resizes and removals.
-/
namespace BeTree
variable {V : Type}

/-- an operation on the map -/
inductive MapOp (V : Type) where
  | set (key : Str) (v : V)
  | remove (key : Str)

/-- Specification: a dictionary is a function. -/
def MapOp.spec : MapOp V → (Str → Option V) → (Str → Option V)
  | .set k v, d => fun k' => if k' = k then some v else d k'
  | .remove k, d => fun k' => if k' = k then none else d k'

/-- the code's operation -/
def MapOp.run (hash : Str → Nat) : MapOp V → HMap V → HMap V
  | .set k v, m => m.set hash k v
  | .remove k, m => m.remove hash k

/-- every node is in the bucket of its key, keys are distinct, the count is right -/
structure HMap.Ok (hash : Str → Nat) (m : HMap V) : Prop where
  placed : ∀ i chain, m.buckets[i]? = some chain → ∀ n ∈ chain,
    n.hash = hash n.key ∧ bucketIdx m.buckets.length n.hash = i
  distinct : (m.buckets.flatten.map MapNode.key).Nodup
  count : m.nnodes = m.buckets.flatten.length

theorem getElem?_mod {α : Type} (bs : List α) (i : Nat) (f : α → α) (j : Nat) :
    (bs.modify i f)[j]? = if i = j then bs[j]?.map f else bs[j]? := by
  rw [List.getElem?_modify]
  by_cases h : i = j
  · simp only [if_pos h]; cases bs[j]? <;> rfl
  · simp only [if_neg h]; cases bs[j]? <;> rfl

theorem inj_of_nodup_map {α β : Type} {f : α → β} {l : List α} (h : (l.map f).Nodup) {a b : α} (ha : a ∈ l)
    (hb : b ∈ l) (he : f a = f b) : a = b := by
  induction l with
  | nil => simp at ha
  | cons x xs ih =>
    simp only [List.map_cons, List.nodup_cons] at h
    rcases List.mem_cons.1 ha with ha' | ha' <;> rcases List.mem_cons.1 hb with hb' | hb'
    · rw [ha', hb']
    · subst ha'; exact absurd (he ▸ List.mem_map_of_mem hb') h.1
    · subst hb'; exact absurd (he ▸ List.mem_map_of_mem ha') h.1
    · exact ih h.2 ha' hb'

theorem bucketIdx_lt {n h : Nat} (hn : 0 < n) : bucketIdx n h < n := by
  have := @Nat.and_le_right h (n - 1)
  unfold bucketIdx; omega

theorem flatten_modify (bs : List (List (MapNode V))) (i : Nat) (n : MapNode V) (h : i < bs.length) :
    (bs.modify i (n :: ·)).flatten.Perm (n :: bs.flatten) := by
  induction bs generalizing i with
  | nil => simp at h
  | cons b bs ih =>
    cases i with
    | zero => simp
    | succ i =>
      simp only [List.modify_succ_cons, List.flatten_cons]
      have := ih i (by simpa using h)
      refine (List.Perm.append_left b this).trans ?_
      exact List.perm_middle

/-- nodes in their buckets -/
def Placed (hash : Str → Nat) (bs : List (List (MapNode V))) : Prop :=
  ∀ i chain, bs[i]? = some chain → ∀ n ∈ chain, n.hash = hash n.key ∧ bucketIdx bs.length n.hash = i

theorem addNode_length (bs : List (List (MapNode V))) (n : MapNode V) : (addNode bs n).length = bs.length := by
  simp [addNode]

theorem addNode_placed {hash : Str → Nat} {bs : List (List (MapNode V))} {n : MapNode V}
    (h : Placed hash bs) (hn : n.hash = hash n.key) : Placed hash (addNode bs n) := by
  intro i chain hc x hx
  rw [addNode_length]
  simp only [addNode, getElem?_mod] at hc
  by_cases hi : bucketIdx bs.length n.hash = i
  · rw [if_pos hi] at hc
    cases hb : bs[i]? with
    | none => simp [hb] at hc
    | some c =>
      simp [hb] at hc; subst hc
      rcases List.mem_cons.1 hx with rfl | hx
      · exact ⟨hn, hi⟩
      · exact h i c hb x hx
  · rw [if_neg hi] at hc
    exact h i chain hc x hx

theorem fold_addNode {hash : Str → Nat} (ns : List (MapNode V)) :
    ∀ (bs : List (List (MapNode V))), 0 < bs.length → Placed hash bs → (∀ n ∈ ns, n.hash = hash n.key) →
      Placed hash (ns.foldl addNode bs) ∧ (ns.foldl addNode bs).length = bs.length ∧
      (ns.foldl addNode bs).flatten.Perm (ns ++ bs.flatten) := by
  induction ns with
  | nil => intro bs _ h _; simp [h]
  | cons n ns ih =>
    intro bs hl h hns
    have h1 := ih (addNode bs n) (by rw [addNode_length]; exact hl)
      (addNode_placed h (hns n (by simp))) (fun x hx => hns x (by simp [hx]))
    refine ⟨h1.1, by rw [List.foldl_cons, h1.2.1, addNode_length], ?_⟩
    rw [List.foldl_cons]
    refine h1.2.2.trans ?_
    refine (List.Perm.append_left ns (flatten_modify bs _ n (bucketIdx_lt hl))).trans ?_
    exact List.perm_middle

theorem foldl_cons_eq {α : Type} (l acc : List α) : l.foldl (fun a n => n :: a) acc = l.reverse ++ acc := by
  induction l generalizing acc with
  | nil => rfl
  | cons x xs ih => simp [ih]

theorem chainAll_perm (bs : List (List (MapNode V))) : (chainAll bs).Perm bs.flatten := by
  unfold chainAll
  rw [foldl_cons_eq, List.append_nil]
  refine (List.reverse_perm _).trans ?_
  exact (List.reverse_perm bs).flatten

theorem Placed.hash_eq {hash : Str → Nat} {bs : List (List (MapNode V))} (h : Placed hash bs) {n : MapNode V}
    (hn : n ∈ bs.flatten) : n.hash = hash n.key := by
  obtain ⟨c, hc, hn⟩ := List.mem_flatten.1 hn
  obtain ⟨i, hi, rfl⟩ := List.getElem_of_mem hc
  exact (h i _ (List.getElem?_eq_getElem hi) n hn).1

theorem resize_spec {hash : Str → Nat} {bs : List (List (MapNode V))} (h : Placed hash bs) (k : Nat) (hk : 0 < k) :
    Placed hash (resize bs k) ∧ (resize bs k).length = k ∧ (resize bs k).flatten.Perm bs.flatten := by
  have := fold_addNode (hash := hash) (chainAll bs) (List.replicate k []) (by simpa)
    (by
      intro i c hc x hx
      simp only [List.getElem?_replicate] at hc
      split at hc <;> simp at hc
      subst hc; simp at hx)
    (fun n hn => h.hash_eq ((chainAll_perm bs).mem_iff.1 hn))
  refine ⟨this.1, this.2.1.trans (by simp), ?_⟩
  refine this.2.2.trans ?_
  have h0 : (List.replicate k ([] : List (MapNode V))).flatten = [] := by simp
  rw [h0, List.append_nil]
  exact chainAll_perm bs

theorem is_iff {hash : Str → Nat} {n : MapNode V} (hn : n.hash = hash n.key) (k : Str) :
    n.is (hash k) k = true ↔ n.key = k := by
  simp only [MapNode.is, Bool.and_eq_true, beq_iff_eq]
  constructor
  · exact fun h => h.2
  · intro h; exact ⟨by rw [hn, h], h⟩

/-- looking up reads the node with that key -/
theorem get_iff {hash : Str → Nat} {m : HMap V} (h : Placed hash m.buckets)
    (hd : (m.buckets.flatten.map MapNode.key).Nodup) (k : Str) (v : V) :
    m.get hash k = some v ↔ ∃ n ∈ m.buckets.flatten, n.key = k ∧ n.value = v := by
  have uniq : ∀ n ∈ m.buckets.flatten, ∀ n' ∈ m.buckets.flatten, n.key = n'.key → n = n' := by
    intro n hn n' hn' he
    exact inj_of_nodup_map hd hn hn' he
  unfold HMap.get
  cases hb : m.buckets[bucketIdx m.buckets.length (hash k)]? with
  | none =>
    simp only [reduceCtorEq, false_iff]
    rintro ⟨n, hn, rfl, rfl⟩
    obtain ⟨c, hc, hn⟩ := List.mem_flatten.1 hn
    obtain ⟨i, hi, rfl⟩ := List.getElem_of_mem hc
    have := h i _ (List.getElem?_eq_getElem hi) n hn
    rw [← this.1, this.2, List.getElem?_eq_getElem hi] at hb
    cases hb
  | some chain =>
    have hmem : ∀ n ∈ chain, n ∈ m.buckets.flatten := fun n hn =>
      List.mem_flatten.2 ⟨chain, List.mem_of_getElem? hb, hn⟩
    simp only [Option.map_eq_some_iff]
    constructor
    · rintro ⟨n, hf, rfl⟩
      have hn := List.mem_of_find?_eq_some hf
      refine ⟨n, hmem n hn, ?_, rfl⟩
      exact (is_iff (h _ _ hb n hn).1 k).1 (List.find?_some (p := fun x : MapNode V => x.is (hash k) k) hf)
    · rintro ⟨n, hn, rfl, rfl⟩
      obtain ⟨c, hc, hn'⟩ := List.mem_flatten.1 hn
      obtain ⟨i, hi, rfl⟩ := List.getElem_of_mem hc
      have hp := h i _ (List.getElem?_eq_getElem hi) n hn'
      rw [← hp.1, hp.2, List.getElem?_eq_getElem hi] at hb
      cases hb
      cases hf : m.buckets[i].find? (·.is (hash n.key) n.key) with
      | none =>
        rw [List.find?_eq_none] at hf
        exact absurd ((is_iff hp.1 n.key).2 rfl) (hf n hn')
      | some n' =>
        have hn2 := List.mem_of_find?_eq_some hf
        have hk := (is_iff (h i _ (List.getElem?_eq_getElem hi) n' hn2).1 n.key).1
          (List.find?_some (p := fun x : MapNode V => x.is (hash n.key) n.key) hf)
        exact ⟨n', rfl, congrArg _ (uniq n' (hmem n' hn2) n hn hk)⟩

theorem setFirst_keys (h : Nat) (k : Str) (v : V) (c : List (MapNode V)) :
    (setFirst h k v c).map MapNode.key = c.map MapNode.key ∧ (setFirst h k v c).length = c.length := by
  induction c with
  | nil => simp [setFirst]
  | cons n c ih =>
    unfold setFirst
    split <;> simp [ih]

theorem setFirst_placed (h : Nat) (k : Str) (v : V) (c : List (MapNode V)) :
    ∀ x ∈ setFirst h k v c, ∃ y ∈ c, x.hash = y.hash ∧ x.key = y.key := by
  induction c with
  | nil => simp [setFirst]
  | cons n c ih =>
    unfold setFirst
    split
    · intro x hx
      rcases List.mem_cons.1 hx with rfl | hx
      · exact ⟨n, by simp, rfl, rfl⟩
      · exact ⟨x, by simp [hx], rfl, rfl⟩
    · intro x hx
      rcases List.mem_cons.1 hx with rfl | hx
      · exact ⟨x, by simp, rfl, rfl⟩
      · obtain ⟨y, hy, h1, h2⟩ := ih x hx
        exact ⟨y, by simp [hy], h1, h2⟩

theorem setFirst_find (hash : Str → Nat) (k k' : Str) (v : V) (c : List (MapNode V)) :
    ((setFirst (hash k) k v c).find? (·.is (hash k') k')).map (·.value) =
      if k' = k then ((c.find? (·.is (hash k) k)).map (fun _ => v)) else (c.find? (·.is (hash k') k')).map (·.value) := by
  induction c with
  | nil => simp [setFirst]
  | cons n c ih =>
    unfold setFirst
    by_cases hn : n.is (hash k) k = true
    · rw [if_pos hn]
      by_cases hk : k' = k
      · subst hk
        have : MapNode.is { n with value := v } (hash k') k' = true := hn
        simp [this, hn]
      · rw [if_neg hk]
        have hx : n.is (hash k') k' = false := by
          simp only [MapNode.is, Bool.and_eq_true, beq_iff_eq] at hn
          simp only [MapNode.is, Bool.and_eq_false_iff, beq_eq_false_iff_ne]
          right; rw [hn.2]; exact fun h => hk h.symm
        have hx' : MapNode.is { n with value := v } (hash k') k' = false := hx
        simp [hx, hx']
    · rw [if_neg hn]
      by_cases hk : k' = k
      · subst hk
        rw [if_pos rfl] at ih ⊢
        rw [List.find?_cons, List.find?_cons]
        simp only [Bool.not_eq_true] at hn
        simp only [hn]; exact ih
      · rw [if_neg hk] at ih ⊢
        rw [List.find?_cons, List.find?_cons]
        cases n.is (hash k') k'
        · exact ih
        · rfl

theorem modify_flatten_map {α β : Type} (f : α → β) (g : List α → List α) (bs : List (List α)) (i : Nat)
    (hg : ∀ c, (g c).map f = c.map f) : (bs.modify i g).flatten.map f = bs.flatten.map f := by
  induction bs generalizing i with
  | nil => simp
  | cons b bs ih =>
    cases i with
    | zero => simp [hg]
    | succ i => simp [ih]

theorem set_ok {hash : Str → Nat} {m : HMap V} (h : m.Ok hash) (k : Str) (v : V) :
    (m.set hash k v).Ok hash ∧
    ∀ k', (m.set hash k v).get hash k' = if k' = k then some v else m.get hash k' := by
  have hpl : Placed hash m.buckets := h.placed
  unfold HMap.set
  cases hg : m.get hash k with
  | some w =>
    dsimp only
    constructor
    · refine ⟨?_, ?_, ?_⟩
      · intro i chain hc n hn
        simp only [getElem?_mod, List.length_modify] at hc ⊢
        by_cases hi : bucketIdx m.buckets.length (hash k) = i
        · rw [if_pos hi] at hc
          cases hb : m.buckets[i]? with
          | none => simp [hb] at hc
          | some c =>
            simp [hb] at hc; subst hc
            obtain ⟨y, hy, h1, h2⟩ := setFirst_placed _ _ _ _ n hn
            rw [h1, h2]; exact h.placed i c hb y hy
        · rw [if_neg hi] at hc
          exact h.placed i chain hc n hn
      · simp only
        rw [modify_flatten_map _ _ _ _ (fun c => (setFirst_keys _ _ _ c).1)]
        exact h.distinct
      · simp only
        rw [h.count]
        have := congrArg List.length (modify_flatten_map MapNode.key (setFirst (hash k) k v) m.buckets
          (bucketIdx m.buckets.length (hash k)) (fun c => (setFirst_keys _ _ _ c).1))
        simpa only [List.length_map] using this.symm
    · intro k'
      simp only [HMap.get, List.length_modify, getElem?_mod]
      by_cases hi : bucketIdx m.buckets.length (hash k) = bucketIdx m.buckets.length (hash k')
      · rw [← hi]
        simp only [if_true]
        unfold HMap.get at hg
        cases hb : m.buckets[bucketIdx m.buckets.length (hash k)]? with
        | none => simp [hb] at hg
        | some c =>
          rw [hb] at hg
          dsimp only [Option.map_some] at hg ⊢
          rw [setFirst_find]
          by_cases hk : k' = k
          · rw [if_pos hk, if_pos hk]
            cases hf : c.find? (·.is (hash k) k) with
            | none => rw [hf] at hg; simp at hg
            | some _ => rfl
          · rw [if_neg hk, if_neg hk]
      · rw [if_neg hi]
        have hk : k' ≠ k := by rintro rfl; exact hi rfl
        rw [if_neg hk]
  | none =>
    dsimp only
    -- the buckets after a possible resize
    have key : ∀ bs : List (List (MapNode V)), 0 < bs.length → Placed hash bs → bs.flatten.Perm m.buckets.flatten →
        (HMap.mk (addNode bs { hash := hash k, key := k, value := v }) (m.nnodes + 1)).Ok hash ∧
        ∀ k', (HMap.mk (addNode bs { hash := hash k, key := k, value := v }) (m.nnodes + 1)).get hash k' =
          if k' = k then some v else m.get hash k' := by
      intro bs hl hp hperm
      have hp' : Placed hash (addNode bs { hash := hash k, key := k, value := v }) := addNode_placed hp rfl
      have hfl := flatten_modify bs (bucketIdx bs.length (hash k)) { hash := hash k, key := k, value := v }
        (bucketIdx_lt hl)
      have hfl2 : (addNode bs { hash := hash k, key := k, value := v }).flatten.Perm
          ({ hash := hash k, key := k, value := v } :: m.buckets.flatten) := hfl.trans (hperm.cons _)
      have hnot : k ∉ m.buckets.flatten.map MapNode.key := by
        intro hmem
        obtain ⟨n, hn, he⟩ := List.mem_map.1 hmem
        have := (get_iff hpl h.distinct k n.value).2 ⟨n, hn, he, rfl⟩
        rw [hg] at this; cases this
      have hd : ((addNode bs { hash := hash k, key := k, value := v }).flatten.map MapNode.key).Nodup := by
        rw [(hfl2.map MapNode.key).nodup_iff]
        simp only [List.map_cons, List.nodup_cons]
        exact ⟨hnot, h.distinct⟩
      refine ⟨⟨hp', hd, ?_⟩, ?_⟩
      · simp only [hfl2.length_eq, List.length_cons, h.count]
      · intro k'
        apply Option.ext
        intro w
        rw [get_iff hp' hd]
        simp only
        by_cases hk : k' = k
        · subst hk
          rw [if_pos rfl]
          constructor
          · rintro ⟨n, hn, h1, h2⟩
            rcases List.mem_cons.1 (hfl2.mem_iff.1 hn) with rfl | hn
            · simp at h2; simp [h2]
            · exact absurd (h1 ▸ List.mem_map_of_mem (f := MapNode.key) hn) hnot
          · intro hw
            cases hw
            exact ⟨_, hfl2.mem_iff.2 (List.mem_cons_self ..), rfl, rfl⟩
        · rw [if_neg hk, get_iff hpl h.distinct]
          constructor
          · rintro ⟨n, hn, h1, h2⟩
            rcases List.mem_cons.1 (hfl2.mem_iff.1 hn) with rfl | hn
            · exact absurd h1.symm hk
            · exact ⟨n, hn, h1, h2⟩
          · rintro ⟨n, hn, h1, h2⟩
            exact ⟨n, hfl2.mem_iff.2 (List.mem_cons_of_mem _ hn), h1, h2⟩
    by_cases hr : m.nnodes ≥ m.buckets.length
    · rw [if_pos hr]
      have hk : 0 < (if m.buckets.length > 0 then m.buckets.length * 2 else 1) := by split <;> omega
      have hrs := resize_spec hpl _ hk
      exact key _ (by rw [hrs.2.1]; exact hk) hrs.1 hrs.2.2
    · rw [if_neg hr]
      exact key _ (by omega) hpl (List.Perm.refl _)

theorem removeFirst_sublist (h : Nat) (k : Str) (c : List (MapNode V)) : (removeFirst h k c).Sublist c := by
  induction c with
  | nil => simp [removeFirst]
  | cons n c ih =>
    unfold removeFirst
    split
    · exact List.sublist_cons_self ..
    · exact ih.cons_cons _

theorem removeFirst_find (hash : Str → Nat) (k k' : Str) (c : List (MapNode V)) (hd : (c.map MapNode.key).Nodup) :
    (removeFirst (hash k) k c).find? (·.is (hash k') k') =
      if k' = k then none else c.find? (·.is (hash k') k') := by
  induction c with
  | nil => simp [removeFirst]
  | cons n c ih =>
    simp only [List.map_cons, List.nodup_cons] at hd
    unfold removeFirst
    by_cases hn : n.is (hash k) k = true
    · rw [if_pos hn]
      have hnk : n.key = k := by simp [MapNode.is] at hn; exact hn.2
      by_cases hk : k' = k
      · subst hk
        rw [if_pos rfl, List.find?_eq_none]
        intro x hx hc
        have hxk : x.key = k' := by simp [MapNode.is] at hc; exact hc.2
        exact hd.1 (hnk.trans hxk.symm ▸ List.mem_map_of_mem hx)
      · rw [if_neg hk, List.find?_cons]
        have : n.is (hash k') k' = false := by
          simp only [MapNode.is, Bool.and_eq_false_iff, beq_eq_false_iff_ne]
          right; rw [hnk]; exact fun h => hk h.symm
        simp [this]
    · rw [if_neg hn, List.find?_cons, List.find?_cons, ih hd.2]
      simp only [Bool.not_eq_true] at hn
      by_cases hk : k' = k
      · subst hk; simp [hn]
      · simp [hk]

theorem removeFirst_length {h : Nat} {k : Str} {c : List (MapNode V)} (hf : (c.find? (·.is h k)).isSome) :
    (removeFirst h k c).length + 1 = c.length := by
  induction c with
  | nil => simp at hf
  | cons n c ih =>
    unfold removeFirst
    by_cases hn : n.is h k = true
    · rw [if_pos hn]; simp
    · rw [if_neg hn]
      simp only [Bool.not_eq_true] at hn
      simp only [List.find?_cons, hn] at hf
      simp [ih hf]

theorem modify_flatten_sublist {α : Type} (g : List α → List α) (bs : List (List α)) (i : Nat)
    (hg : ∀ c, (g c).Sublist c) : (bs.modify i g).flatten.Sublist bs.flatten := by
  induction bs generalizing i with
  | nil => simp
  | cons b bs ih =>
    cases i with
    | zero => simpa using (hg b).append (List.Sublist.refl bs.flatten)
    | succ i => simpa using (List.Sublist.refl b).append (ih i)

theorem modify_flatten_length {α : Type} (g : List α → List α) (bs : List (List α)) (i : Nat) (c : List α)
    (hc : bs[i]? = some c) (hg : (g c).length + 1 = c.length) :
    (bs.modify i g).flatten.length + 1 = bs.flatten.length := by
  induction bs generalizing i with
  | nil => simp at hc
  | cons b bs ih =>
    cases i with
    | zero => simp at hc; subst hc; simp; omega
    | succ i =>
      simp at hc
      have := ih i hc
      simp only [List.modify_succ_cons, List.flatten_cons, List.length_append]; omega

theorem remove_ok {hash : Str → Nat} {m : HMap V} (h : m.Ok hash) (k : Str) :
    (m.remove hash k).Ok hash ∧
    ∀ k', (m.remove hash k).get hash k' = if k' = k then none else m.get hash k' := by
  unfold HMap.remove
  cases hg : m.get hash k with
  | none =>
    refine ⟨h, fun k' => ?_⟩
    by_cases hk : k' = k
    · subst hk; simp [hg]
    · simp [hk]
  | some w =>
    dsimp only
    have hb : ∃ c, m.buckets[bucketIdx m.buckets.length (hash k)]? = some c ∧ (c.find? (·.is (hash k) k)).isSome := by
      unfold HMap.get at hg
      cases hb : m.buckets[bucketIdx m.buckets.length (hash k)]? with
      | none => simp [hb] at hg
      | some c =>
        rw [hb] at hg
        dsimp only at hg
        refine ⟨c, rfl, ?_⟩
        cases hf : c.find? (·.is (hash k) k) with
        | none => rw [hf] at hg; simp at hg
        | some _ => rfl
    obtain ⟨c, hb, hf⟩ := hb
    constructor
    · refine ⟨?_, ?_, ?_⟩
      · intro i chain hc n hn
        simp only [getElem?_mod, List.length_modify] at hc ⊢
        by_cases hi : bucketIdx m.buckets.length (hash k) = i
        · rw [if_pos hi] at hc
          rw [← hi, hb] at hc
          simp at hc; subst hc
          rw [hi] at hb
          exact h.placed i c hb n ((removeFirst_sublist _ _ _).subset hn)
        · rw [if_neg hi] at hc
          exact h.placed i chain hc n hn
      · exact h.distinct.sublist ((modify_flatten_sublist _ _ _ (fun c => removeFirst_sublist _ _ c)).map _)
      · have := modify_flatten_length (removeFirst (hash k) k) m.buckets _ c hb (removeFirst_length hf)
        have := h.count
        simp only; omega
    · intro k'
      simp only [HMap.get, List.length_modify, getElem?_mod]
      by_cases hi : bucketIdx m.buckets.length (hash k) = bucketIdx m.buckets.length (hash k')
      · rw [← hi, hb]
        simp only [if_true, Option.map_some]
        have hdc : (c.map MapNode.key).Nodup := by
          refine h.distinct.sublist (List.Sublist.map _ ?_)
          exact List.sublist_flatten_of_mem (List.mem_of_getElem? hb)
        rw [removeFirst_find hash k k' c hdc]
        by_cases hk : k' = k
        · simp [hk]
        · simp [hk]
      · rw [if_neg hi]
        have hk : k' ≠ k := by rintro rfl; exact hi rfl
        rw [if_neg hk]

theorem empty_ok (hash : Str → Nat) : (HMap.empty : HMap V).Ok hash :=
  ⟨by intro i c h; simp [HMap.empty] at h, by simp [HMap.empty], by simp [HMap.empty]⟩

theorem run_ok (hash : Str → Nat) (ops : List (MapOp V)) :
    ∀ (m : HMap V), m.Ok hash →
      (ops.foldl (fun m o => o.run hash m) m).Ok hash ∧
      ∀ k, (ops.foldl (fun m o => o.run hash m) m).get hash k =
        ops.foldl (fun d o => o.spec d) (fun k => m.get hash k) k := by
  induction ops with
  | nil => intro m h; exact ⟨h, fun _ => rfl⟩
  | cons o ops ih =>
    intro m h
    have ho : (o.run hash m).Ok hash ∧ (fun k => (o.run hash m).get hash k) = o.spec (fun k => m.get hash k) := by
      cases o with
      | set k v => exact ⟨(set_ok h k v).1, funext (set_ok h k v).2⟩
      | remove k => exact ⟨(remove_ok h k).1, funext (remove_ok h k).2⟩
    have := ih _ ho.1
    refine ⟨this.1, fun k => ?_⟩
    rw [List.foldl_cons, this.2, ho.2, List.foldl_cons]

/-- C40: after any sequence of `map_set` and `map_remove` on a fresh map, `map_get` answers like a dictionary, whatever
the hash function (so whatever the collisions). -/
theorem C40_map_refines_dictionary (hash : Str → Nat) (ops : List (MapOp V)) (k : Str) :
    (ops.foldl (fun m o => o.run hash m) HMap.empty).get hash k =
      ops.foldl (fun d o => o.spec d) (fun _ => none) k := by
  have h := (run_ok hash ops HMap.empty (empty_ok hash)).2 k
  rw [h]
  have : (fun k => (HMap.empty : HMap V).get hash k) = fun _ => none := by
    funext k; simp [HMap.get, HMap.empty]
  rw [this]

/-- C40: the node count is the number of keys present. -/
theorem C40_map_count (hash : Str → Nat) (ops : List (MapOp V)) :
    ∃ keys : List Str, keys.Nodup ∧ keys.length = (ops.foldl (fun m o => o.run hash m) HMap.empty).nnodes ∧
      ∀ k, k ∈ keys ↔ (ops.foldl (fun m o => o.run hash m) HMap.empty).get hash k ≠ none := by
  have h := (run_ok hash ops HMap.empty (empty_ok hash)).1
  refine ⟨_, h.distinct, by rw [List.length_map, h.count], fun k => ?_⟩
  rw [List.mem_map]
  constructor
  · rintro ⟨n, hn, hk⟩ hnone
    rw [(get_iff h.placed h.distinct k n.value).2 ⟨n, hn, hk, rfl⟩] at hnone
    cases hnone
  · intro hne
    cases hg : (ops.foldl (fun m o => o.run hash m) HMap.empty).get hash k with
    | none => exact absurd hg hne
    | some v =>
      obtain ⟨n, hn, hk, _⟩ := (get_iff h.placed h.distinct k v).1 hg
      exact ⟨n, hn, hk⟩

/-- four keys, two of them colliding under the code's hash modulo the bucket count, one overwritten, one removed -/
example :
    let ops : List (MapOp Nat) := [.set "a".toList 0, .set "b".toList 1, .set "c".toList 2, .set "a".toList 7, .remove "b".toList]
    let m := ops.foldl (fun m o => o.run mapHash m) HMap.empty
    m.get mapHash "a".toList = some 7 ∧ m.get mapHash "b".toList = none ∧ m.get mapHash "c".toList = some 2 ∧ m.nnodes = 2 := by
  decide

end BeTree
