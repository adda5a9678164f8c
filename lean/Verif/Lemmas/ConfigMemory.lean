import Verif.Spec.ConfigMemory
import Verif.Lemmas.NodeMemory
import Verif.Lemmas.PredMap
import Verif.Lemmas.RBMap
import Verif.Props.StrMap
/-
The memory of the configuration: the passes keep the tables, and the tables are what the lists of `Model/Config.lean` say.
-/
namespace BeTree
open RB

/-! ### the relation -/

structure FitsMap (H : Str → Nat) (x : MapImg) (vals : List Str) : Prop where
  ok : x.map.Ok H
  get : ∀ s, (x.map.get H s).map (·.1) = vals.idxOf? s
  count : x.map.nnodes = vals.length
  arr : x.array = none ↔ x.map.buckets = []
  room : vals ≠ [] → x.map.buckets ≠ []

structure FitsStr (H : Str → Nat) (m : StringMap) (i : StrImg) : Prop where
  var : i.var = m.attr.var
  count : i.count = m.values.length
  some : m.values ≠ [] → ∃ x, i.map = some x ∧ FitsMap H x m.values
  none : m.values = [] → i.map = Option.none ∨ i.map = Option.some .empty

structure FitsInt (m : IntMap) (i : IntImg) : Prop where
  var : i.var = m.attr.var
  values : i.values = m.values
  arr : i.array = none ↔ m.values = []

structure FitsCfg (H : Str → Nat) (cfg : Config) (img : CfgImg) : Prop where
  doms : img.doms.length = cfg.domains.length
  domArr : img.domArray = none ↔ img.doms = []
  ints : List.Forall₂ FitsInt cfg.intMaps img.ints
  intArr : img.intArray = none ↔ img.ints = []
  strs : List.Forall₂ (FitsStr H) cfg.stringMaps img.strs
  strArr : img.strArray = none ↔ img.strs = []
  first : ∀ i is, img.strs = i :: is → i.map ≠ none
  preds : img.preds.exprs = cfg.predMap.m
  pm : PMOK cfg.predMap
  predCount : img.preds.nodeList.length = cfg.predMap.predCount

/-- the result is this one, with these tables -/
def KeepsC {α : Type} (H : Str → Nat) (r : α × Config) (q : (α × Config) × CfgImg) (M : List Nat) : Prop :=
  q.1 = r ∧ M = q.2.blocks ∧ FitsCfg H r.2 q.2

/-! ### the hash map -/

theorem MapImg.empty_fits (H : Str → Nat) : FitsMap H MapImg.empty [] :=
  ⟨empty_ok H, fun s => by simp [MapImg.empty, HMap.empty, HMap.get], rfl, by simp [MapImg.empty, HMap.empty], by simp⟩

theorem idxOf?_snoc (vals : List Str) (s k : Str) (h : vals.idxOf? s = none) :
    (vals ++ [s]).idxOf? k = if k = s then some vals.length else vals.idxOf? k := by
  induction vals with
  | nil =>
    by_cases hk : k = s
    · subst hk; simp [List.idxOf?_cons]
    · have : ¬ s = k := fun e => hk e.symm
      simp [List.idxOf?_cons, hk, this]
  | cons v vs ih =>
    simp only [List.idxOf?_cons] at h
    split at h
    · cases h
    · rename_i hv
      have hv' : ¬ v = s := by simpa using hv
      have ih := ih (by simpa using h)
      simp only [List.cons_append, List.idxOf?_cons, ih]
      by_cases hk : k = s
      · subst hk
        simp [hv']
      · simp only [hk, if_false]

/-- the nodes after a text that was not in the map is added -/
theorem set_nodes {V : Type} {hash : Str → Nat} {m : HMap V} (h : m.Ok hash) (k : Str) (v : V) (hg : m.get hash k = none) :
    ((m.set hash k v).buckets.flatten.map (·.value)).Perm (v :: m.buckets.flatten.map (·.value)) ∧
      (m.set hash k v).nnodes = m.nnodes + 1 ∧ (m.set hash k v).buckets ≠ [] := by
  have hpl : Placed hash m.buckets := h.placed
  have key : ∀ bs : List (List (MapNode V)), bs ≠ [] → bs.flatten.Perm m.buckets.flatten →
      ((addNode bs { hash := hash k, key := k, value := v }).flatten.map (·.value)).Perm (v :: m.buckets.flatten.map (·.value)) ∧
      addNode bs { hash := hash k, key := k, value := v } ≠ [] := by
    intro bs hb hp
    have hl : 0 < bs.length := List.length_pos_iff.mpr hb
    constructor
    · have := (flatten_modify bs (bucketIdx bs.length (hash k)) { hash := hash k, key := k, value := v } (bucketIdx_lt hl)).map (·.value)
      exact this.trans (by simpa using (hp.map (·.value)).cons v)
    · intro he
      have := addNode_length bs { hash := hash k, key := k, value := v }
      rw [he] at this
      simp at this
      omega
  simp only [HMap.set, hg]
  refine ⟨?_, trivial, ?_⟩
  · split
    · rename_i hf
      have hk : 0 < (if m.buckets.length > 0 then m.buckets.length * 2 else 1) := by split <;> omega
      obtain ⟨_, h2, h3⟩ := resize_spec hpl _ hk
      exact (key _ (by intro e; rw [← h2, e] at hk; simp at hk) h3).1
    · rename_i hf
      refine (key _ ?_ (.refl _)).1
      intro e
      rw [e] at hf
      simp at hf
  · split
    · rename_i hf
      have hk : 0 < (if m.buckets.length > 0 then m.buckets.length * 2 else 1) := by split <;> omega
      obtain ⟨_, h2, h3⟩ := resize_spec hpl _ hk
      exact (key _ (by intro e; rw [← h2, e] at hk; simp at hk) h3).2
    · rename_i hf
      refine (key _ ?_ (.refl _)).2
      intro e
      rw [e] at hf
      simp at hf

/-- `x` with more blocks around -/
theorem touch_in {α : Type} {bs L : List Nat} {f : Unit → Mem α} {Q : α → List Nat → Prop} (hs : ∀ b ∈ bs, b ∈ L) (H : Does (f ()) L Q) :
    Does (touchAll bs >>= f) L Q := Does.then (touchAll_does hs) H

theorem touch_one {α : Type} {b : Nat} {L : List Nat} {f : Unit → Mem α} {Q : α → List Nat → Prop} (hs : b ∈ L) (H : Does (f ()) L Q) :
    Does (touch b >>= f) L Q := ⟨hs, H⟩

theorem MapImg.mem_array {m : MapImg} : ∀ b ∈ m.array.toList, b ∈ m.blocks := fun _ hb => List.mem_append_left _ hb
theorem MapImg.mem_nodes {m : MapImg} : ∀ b ∈ nodeBlocksOf m.map.buckets, b ∈ m.blocks := fun _ hb => List.mem_append_right _ hb

theorem mapRoomMem_does {m : MapImg} (h : m.array = none ↔ m.map.buckets = []) :
    Does (mapRoomMem m) m.array.toList (fun a M => (∃ c, a = some c) ∧ M = a.toList) := by
  unfold mapRoomMem
  split
  · cases ha : m.array with
    | none => exact Does.malloc fun a => Does.pure (L' := [a]) (by simp) ⟨⟨a, rfl⟩, rfl⟩
    | some a0 => exact Does.realloc (L' := []) (by simp) fun a => Does.pure (L' := [a]) (by simp) ⟨⟨a, rfl⟩, rfl⟩
  · rename_i hf
    cases ha : m.array with
    | none =>
      have := h.mp ha
      rw [this] at hf
      simp at hf
    | some a => exact Does.pure (L' := [a]) (by simp) ⟨⟨a, rfl⟩, rfl⟩

theorem mapSetMem_does {H : Str → Nat} {x : MapImg} {vals : List Str} {s : Str} (hx : FitsMap H x vals) (hs : vals.idxOf? s = none) :
    Does (mapSetMem H x s vals.length) x.blocks (fun y M => M = y.blocks ∧ FitsMap H y (vals ++ [s])) := by
  have hg : x.map.get H s = none := by
    have := hx.get s
    rw [hs] at this
    simpa using this
  unfold mapSetMem
  refine touch_in MapImg.mem_array (touch_in MapImg.mem_nodes ?_)
  rw [hg]
  dsimp only
  refine Does.malloc fun b => ?_
  obtain ⟨hn, hc, hne⟩ := set_nodes hx.ok s (vals.length, b) hg
  obtain ⟨hok, hget⟩ := set_ok hx.ok s (vals.length, b)
  have fits : ∀ a : Nat, FitsMap H { array := some a, map := x.map.set H s (vals.length, b) } (vals ++ [s]) := by
    intro a
    refine ⟨hok, ?_, ?_, ?_, fun _ => hne⟩
    · intro k
      dsimp only
      rw [hget, idxOf?_snoc _ _ _ hs]
      split
      · rfl
      · exact hx.get k
    · dsimp only
      rw [hc, hx.count]; simp
    · simp [hne]
  have hp : ∀ a : Nat, (a :: b :: nodeBlocksOf x.map.buckets).Perm
      (MapImg.blocks { array := some a, map := x.map.set H s (vals.length, b) }) := by
    intro a
    have := hn.map (·.2)
    simp only [List.map_cons, List.map_map, Function.comp_def] at this
    exact (this.symm).cons a
  refine Does.seq (P := x.array.toList) (L' := b :: nodeBlocksOf x.map.buckets) ?_ (mapRoomMem_does hx.arr) ?_
  · simp only [MapImg.blocks, nodeBlocksOf]
    blocks
  · rintro _ M ⟨⟨a, rfl⟩, rfl⟩
    refine touch_in (by simp) ?_
    exact Does.pure (hp a) ⟨rfl, fits a⟩

theorem mapDeinitMem_does (m : MapImg) : Gone (mapDeinitMem m) m.blocks := by
  unfold mapDeinitMem
  refine touch_in MapImg.mem_array ?_
  refine Gone.then (freeStrings_does _) (freeOpt_does _) ?_
  have : (nodeBlocksOf m.map.buckets.reverse).Perm (nodeBlocksOf m.map.buckets) := by
    unfold nodeBlocksOf
    exact List.Perm.map _ (List.reverse_perm _).flatten
  refine List.Perm.trans ?_ (this.symm.append_right _)
  exact List.perm_append_comm

/-! ### tables in a list -/

theorem set_flat {α : Type} (f : α → List Nat) : ∀ (l : List α) (k : Nat) (a : α), l[k]? = some a →
    ∃ R, (l.flatMap f).Perm (f a ++ R) ∧ ∀ b, ((l.set k b).flatMap f).Perm (f b ++ R) := by
  intro l
  induction l with
  | nil => intro k a h; simp at h
  | cons x xs ih =>
    intro k a h
    cases k with
    | zero =>
      simp at h
      subst h
      exact ⟨xs.flatMap f, by simp, by simp⟩
    | succ k =>
      obtain ⟨R, h1, h2⟩ := ih k a (by simpa using h)
      refine ⟨f x ++ R, ?_, fun b => ?_⟩
      · simp only [List.flatMap_cons]
        exact (h1.append_left _).trans (by blocks)
      · simp only [List.set_cons_succ, List.flatMap_cons]
        exact ((h2 b).append_left _).trans (by blocks)

theorem findStr_none {H : Str → Nat} {maps : List StringMap} {imgs : List StrImg} (hf : List.Forall₂ (FitsStr H) maps imgs) {var : Nat}
    (h : findStrMap maps var = none) : findStrImg var imgs = none ∧ ∀ (m0 : StringMap) (s : Str), m0.attr.var = var →
      appendStr (maps ++ [m0]) var s = maps ++ [{ m0 with values := m0.values ++ [s] }] := by
  induction hf with
  | nil => exact ⟨rfl, fun m0 s e => by simp [appendStr, e]⟩
  | @cons m i ms is hm hs ih =>
    simp only [findStrMap, List.find?_cons] at h
    split at h
    · cases h
    · rename_i hv
      have hv' : ¬ m.attr.var = var := by simpa using hv
      obtain ⟨h1, h2⟩ := ih h
      refine ⟨by simp [findStrImg, hm.var, hv', h1], fun m0 s e => ?_⟩
      simp only [List.cons_append, appendStr, hv', if_false, h2 m0 s e]

theorem findStr_some {H : Str → Nat} {maps : List StringMap} {imgs : List StrImg} (hf : List.Forall₂ (FitsStr H) maps imgs) {var : Nat}
    {m : StringMap} (h : findStrMap maps var = some m) : m.attr.var = var ∧ ∃ k i, findStrImg var imgs = some (k, i) ∧ imgs[k]? = some i ∧
      FitsStr H m i ∧ (zeroed maps m = true → k = 0) ∧
      ∀ s i', FitsStr H { m with values := m.values ++ [s] } i' → List.Forall₂ (FitsStr H) (appendStr maps var s) (imgs.set k i') := by
  induction hf with
  | nil => simp [findStrMap] at h
  | @cons m1 i ms is hm hs ih =>
    simp only [findStrMap, List.find?_cons] at h
    split at h
    · rename_i hv
      have hv' : m1.attr.var = var := by simpa using hv
      cases h
      refine ⟨hv', 0, i, by simp [findStrImg, hm.var, hv'], rfl, hm, fun _ => rfl, fun s i' hi => ?_⟩
      simp only [appendStr, hv', if_true, List.set_cons_zero]
      exact .cons hi hs
    · rename_i hv
      have hv' : ¬ m1.attr.var = var := by simpa using hv
      obtain ⟨h0, k, i', h1, h2, h3, _, h5⟩ := ih h
      refine ⟨h0, k + 1, i', by simp [findStrImg, hm.var, hv', h1], by simpa using h2, h3, ?_, fun s j hj => ?_⟩
      · intro hz
        simp only [zeroed, beq_iff_eq] at hz
        exact absurd (hz.trans h0) hv'
      · simp only [appendStr, hv', if_false, List.set_cons_succ]
        exact .cons hm (h5 s j hj)

theorem findInt_none {maps : List IntMap} {imgs : List IntImg} (hf : List.Forall₂ FitsInt maps imgs) {var : Nat}
    (h : findIntMap maps var = none) : findIntImg var imgs = none ∧ ∀ (m0 : IntMap) (s : Int), m0.attr.var = var →
      appendInt (maps ++ [m0]) var s = maps ++ [{ m0 with values := m0.values ++ [s] }] := by
  induction hf with
  | nil => exact ⟨rfl, fun m0 s e => by simp [appendInt, e]⟩
  | @cons m i ms is hm hs ih =>
    simp only [findIntMap, List.find?_cons] at h
    split at h
    · cases h
    · rename_i hv
      have hv' : ¬ m.attr.var = var := by simpa using hv
      obtain ⟨h1, h2⟩ := ih h
      refine ⟨by simp [findIntImg, hm.var, hv', h1], fun m0 s e => ?_⟩
      simp only [List.cons_append, appendInt, hv', if_false, h2 m0 s e]

theorem findInt_some {maps : List IntMap} {imgs : List IntImg} (hf : List.Forall₂ FitsInt maps imgs) {var : Nat}
    {m : IntMap} (h : findIntMap maps var = some m) : ∃ k i, findIntImg var imgs = some (k, i) ∧ imgs[k]? = some i ∧
      FitsInt m i ∧
      ∀ s i', FitsInt { m with values := m.values ++ [s] } i' → List.Forall₂ FitsInt (appendInt maps var s) (imgs.set k i') := by
  induction hf with
  | nil => simp [findIntMap] at h
  | @cons m1 i ms is hm hs ih =>
    simp only [findIntMap, List.find?_cons] at h
    split at h
    · rename_i hv
      have hv' : m1.attr.var = var := by simpa using hv
      cases h
      refine ⟨0, i, by simp [findIntImg, hm.var, hv'], rfl, hm, fun s i' hi => ?_⟩
      simp only [appendInt, hv', if_true, List.set_cons_zero]
      exact .cons hi hs
    · rename_i hv
      have hv' : ¬ m1.attr.var = var := by simpa using hv
      obtain ⟨k, i', h1, h2, h3, h5⟩ := ih h
      refine ⟨k + 1, i', by simp [findIntImg, hm.var, hv', h1], by simpa using h2, h3, fun s j hj => ?_⟩
      simp only [appendInt, hv', if_false, List.set_cons_succ]
      exact .cons hm (h5 s j hj)

/-! ### strings -/

theorem isSome_iff {α : Type} {a : Option Nat} {l : List α} (h : a = none ↔ l = []) : a.isSome = true ↔ l.length ≠ 0 := by
  rw [Option.isSome_iff_ne_none, ne_eq, h, ne_eq, List.length_eq_zero_iff]

theorem touchDomain_does {α : Type} {H : Str → Nat} {cfg : Config} {img : CfgImg} {v : Nat} {d : Domain} {f : Unit → Mem α}
    {Q : α → List Nat → Prop} (hf : FitsCfg H cfg img) (hd : getDomain cfg v = .ok d) (K : Does (f ()) img.blocks Q) :
    Does (touchDomain img v >>= f) img.blocks Q := by
  have hlt : v < img.doms.length := by
    rw [hf.doms]
    simp only [getDomain] at hd
    split at hd
    · cases hd
    · rename_i h
      exact (List.getElem?_eq_some_iff.mp h).1
  have hg := List.getElem?_eq_getElem hlt
  simp only [touchDomain, bind_assoc]
  refine touch_in (fun b hb => ?_) ?_
  · simp only [CfgImg.blocks, List.mem_cons, List.mem_append]
    exact .inr (.inr (.inr (.inl hb)))
  · rw [hg]
    dsimp only
    refine touch_one ?_ K
    simp only [CfgImg.blocks, List.mem_cons, List.mem_append, List.mem_flatMap]
    exact .inr (.inr (.inr (.inr (.inl ⟨_, List.getElem_mem hlt, by simp⟩))))

theorem mem_strArray {img : CfgImg} : ∀ b ∈ img.strArray.toList, b ∈ img.blocks := by
  intro b hb
  simp only [CfgImg.blocks, List.mem_cons, List.mem_append]
  exact .inr (.inr (.inr (.inr (.inr (.inr (.inr (.inl hb)))))))

theorem mem_intArray {img : CfgImg} : ∀ b ∈ img.intArray.toList, b ∈ img.blocks := by
  intro b hb
  simp only [CfgImg.blocks, List.mem_cons, List.mem_append]
  exact .inr (.inr (.inr (.inr (.inr (.inl hb)))))

/-- everything but the tables of strings and their array -/
def CfgImg.noStrs (img : CfgImg) : List Nat :=
  img.config :: img.predMap :: img.rbtree ::
    (img.domArray.toList ++ (img.doms.flatMap (fun d => [d.1, d.2]) ++
    (img.intArray.toList ++ (img.ints.flatMap IntImg.blocks ++ img.preds.nodeList))))

/-- everything but the tables of integers and their array -/
def CfgImg.noInts (img : CfgImg) : List Nat :=
  img.config :: img.predMap :: img.rbtree ::
    (img.domArray.toList ++ (img.doms.flatMap (fun d => [d.1, d.2]) ++
    (img.strArray.toList ++ (img.strs.flatMap StrImg.blocks ++ img.preds.nodeList))))

theorem CfgImg.blocks_strs (img : CfgImg) : img.blocks.Perm (img.strs.flatMap StrImg.blocks ++ (img.strArray.toList ++ img.noStrs)) := by
  simp only [CfgImg.blocks, CfgImg.noStrs]; blocks

theorem CfgImg.blocks_ints (img : CfgImg) : img.blocks.Perm (img.ints.flatMap IntImg.blocks ++ (img.intArray.toList ++ img.noInts)) := by
  simp only [CfgImg.blocks, CfgImg.noInts]; blocks

theorem addToStringMap_does {H : Str → Nat} {img : CfgImg} {k : Nat} {i : StrImg} {m : StringMap} {s : Str} (hk : img.strs[k]? = some i)
    (hi : FitsStr H m i) (hs : m.values.idxOf? s = none) : Does (addToStringMapMem H img img.strArray k s) img.blocks
      (fun img' M => M = img'.blocks ∧ ∃ i', img' = { img with strs := img.strs.set k i' } ∧ i'.map ≠ none ∧
        FitsStr H { m with values := m.values ++ [s] } i') := by
  obtain ⟨R, h1, h2⟩ := set_flat StrImg.blocks img.strs k i hk
  have : ∃ x, (if i.count = 0 then some .empty else i.map) = some x ∧ FitsMap H x m.values ∧ i.blocks = i.name :: x.blocks := by
    by_cases hv : m.values = []
    · refine ⟨.empty, ?_, by rw [hv]; exact MapImg.empty_fits H, ?_⟩
      · simp [hi.count, hv]
      · rcases hi.none hv with e | e <;> simp [StrImg.blocks, e, MapImg.blocks, MapImg.empty, HMap.empty]
    · obtain ⟨x, e, hx⟩ := hi.some hv
      refine ⟨x, ?_, hx, by simp [StrImg.blocks, e]⟩
      have : i.count ≠ 0 := by rw [hi.count]; simpa using hv
      simp [this, e]
  obtain ⟨x, hx, hfx, hb⟩ := this
  unfold addToStringMapMem
  refine touch_in mem_strArray ?_
  rw [hk]
  dsimp only
  rw [hx]
  dsimp only
  rw [hi.count]
  refine Does.seq (P := x.blocks) (L' := i.name :: (R ++ (img.strArray.toList ++ img.noStrs))) ?_ (mapSetMem_does hfx hs) ?_
  · refine (img.blocks_strs).trans ((h1.append_right _).trans ?_)
    rw [hb]
    blocks
  · rintro y M ⟨rfl, hy⟩
    refine Does.pure ?_ ⟨rfl, _, rfl, by simp, ?_⟩
    · refine List.Perm.trans ?_ (CfgImg.blocks_strs _).symm
      refine List.Perm.trans ?_ ((h2 _).append_right _).symm
      simp only [StrImg.blocks, CfgImg.noStrs]
      blocks
    · refine ⟨hi.var, by simp, fun _ => ⟨y, rfl, hy⟩, fun e => by simp at e⟩

theorem addStrIdMem_does {H : Str → Nat} {cfg : Config} {img : CfgImg} {k : Nat} {i : StrImg} {m : StringMap} {v : AttrVar} {s : Str}
    {always : Bool} {maps : List StringMap} {r : Nat × Config} (hf : FitsCfg H { cfg with stringMaps := maps } img)
    (hk : img.strs[k]? = some i) (hi : FitsStr H m i) (hs : m.values.idxOf? s = none)
    (hu : ∀ i', FitsStr H { m with values := m.values ++ [s] } i' → List.Forall₂ (FitsStr H) (appendStr maps v.var s) (img.strs.set k i'))
    (h : addStrId cfg v s always maps m.values.length = .ok r) :
    Does (addStrIdMem H cfg img img.strArray k v s always maps m.values.length) img.blocks (KeepsC H r) := by
  have add : Does (do
      let img ← addToStringMapMem H img img.strArray k s
      pure ((m.values.length, { cfg with stringMaps := appendStr maps v.var s }), img)) img.blocks
      (KeepsC H (m.values.length, { cfg with stringMaps := appendStr maps v.var s })) := by
    refine Does.seq (P := img.blocks) (L' := []) (by simp) (addToStringMap_does hk hi hs) ?_
    rintro _ M ⟨rfl, i', rfl, hn, hi'⟩
    refine Does.pure (by simp) ⟨rfl, rfl, ?_⟩
    refine { hf with strs := hu i' hi', strArr := ?_, first := ?_ }
    · dsimp only
      rw [hf.strArr]
      simp
    · dsimp only
      intro j js e
      cases k with
      | zero =>
        cases hss : img.strs with
        | nil => rw [hss] at hk; simp at hk
        | cons a as =>
          rw [hss] at e
          simp only [List.set_cons_zero, List.cons.injEq] at e
          rw [← e.1]; exact hn
      | succ k =>
        cases hss : img.strs with
        | nil => rw [hss] at hk; simp at hk
        | cons a as =>
          rw [hss] at e
          simp only [List.set_cons_succ, List.cons.injEq] at e
          rw [← e.1]; exact hf.first a as hss
  simp only [addStrId] at h
  simp only [addStrIdMem]
  cases hd : getDomain cfg v.var with
  | error e => rw [hd] at h; cases h
  | ok d =>
    rw [hd] at h
    refine Does.lift rfl ?_
    have hd' : getDomain { cfg with stringMaps := maps } v.var = .ok d := hd
    refine touchDomain_does hf hd' ?_
    dsimp only at h
    cases always with
    | true => cases h; exact add
    | false =>
      simp only [Bool.false_eq_true, if_false] at h ⊢
      cases hm : d.bound.smax with
      | error e => rw [hm] at h; cases h
      | ok smax =>
        rw [hm] at h
        refine Does.lift rfl ?_
        refine touch_in mem_strArray ?_
        dsimp only at h
        split
        · rename_i hx
          rw [if_pos hx] at h
          cases h
          exact Does.pure (.refl _) ⟨rfl, rfl, hf⟩
        · rename_i hx
          rw [if_neg hx] at h
          cases h
          exact add

theorem getIdForStringMem_does {H : Str → Nat} {cfg : Config} {img : CfgImg} {v : AttrVar} {s : Str} {always : Bool} {r : Nat × Config}
    (hf : FitsCfg H cfg img) (h : getIdForString cfg v s always = .ok r) :
    Does (getIdForStringMem H cfg img v s always) img.blocks (KeepsC H r) := by
  simp only [getIdForString] at h
  simp only [getIdForStringMem]
  refine touch_in mem_strArray ?_
  cases hm : findStrMap cfg.stringMaps v.var with
  | none =>
    rw [hm] at h
    dsimp only at h
    obtain ⟨h1, h2⟩ := findStr_none hf.strs hm
    rw [h1]
    dsimp only
    simp only [addStringMapMem, bind_assoc, pure_bind]
    refine growSubs_does (L' := img.strs.flatMap StrImg.blocks ++ img.noStrs) (isSome_iff hf.strArr) ?_ fun a => Does.malloc fun n => ?_
    · exact (img.blocks_strs).trans (by blocks)
    · let i0 : StrImg := { var := v.var, name := n, count := 0, map := if img.strs.length = 0 then some .empty else none }
      let img' : CfgImg := { img with strArray := some a, strs := img.strs ++ [i0] }
      have hlen : img'.strs.length - 1 = img.strs.length := by simp [img']
      have hi : FitsStr H { attr := v, values := [] } i0 :=
        ⟨rfl, rfl, fun e => absurd rfl e, fun _ => by by_cases e : img.strs.length = 0 <;> simp [i0, e]⟩
      have hfit : FitsCfg H { cfg with stringMaps := cfg.stringMaps ++ [{ attr := v, values := [] }] } img' := by
        refine { hf with strs := List.rel_append hf.strs (.cons hi .nil), strArr := by simp [img'], first := ?_ }
        intro j js e
        dsimp only [img'] at e
        cases hss : img.strs with
        | nil =>
          rw [hss] at e
          simp only [List.nil_append, List.cons.injEq] at e
          rw [← e.1]; simp [i0, hss]
        | cons x xs =>
          rw [hss] at e
          simp only [List.cons_append, List.cons.injEq] at e
          rw [← e.1]; exact hf.first x xs hss
      have hk : img'.strs[img'.strs.length - 1]? = some i0 := by
        rw [hlen]; simp [img']
      have hb : (n :: a :: (img.strs.flatMap StrImg.blocks ++ img.noStrs)).Perm img'.blocks := by
        refine List.Perm.trans ?_ (img'.blocks_strs).symm
        have : i0.blocks = [n] := by
          by_cases e : img.strs.length = 0 <;> simp [i0, e, StrImg.blocks, MapImg.blocks, MapImg.empty, HMap.empty]
        simp only [img', List.flatMap_append, List.flatMap_cons, List.flatMap_nil, this, CfgImg.noStrs, Option.toList]
        blocks
      refine Does.perm ?_ hb
      refine addStrIdMem_does (m := { attr := v, values := [] }) hfit hk hi rfl ?_ h
      intro i' hi'
      rw [hlen, h2 _ _ rfl]
      have : img'.strs.set img.strs.length i' = img.strs ++ [i'] := by simp [img']
      rw [this]
      exact List.rel_append hf.strs (.cons hi' .nil)
  | some m =>
    rw [hm] at h
    dsimp only at h
    obtain ⟨_, k, i, h1, h2, h3, h4, h5⟩ := findStr_some hf.strs hm
    rw [h1]
    dsimp only
    cases hg : strMapGet cfg.stringMaps m s with
    | error e => rw [hg] at h; cases h
    | ok o =>
      rw [hg] at h
      simp only [strMapGet] at hg
      split at hg
      · cases hg
      · rename_i hz
        cases hg
        have : ∃ x, i.map = some x ∧ FitsMap H x m.values := by
          by_cases hv : m.values = []
          · have hz' : zeroed cfg.stringMaps m = true := by simpa [hv] using hz
            have := h4 hz'
            subst this
            rcases h3.none hv with e | e
            · cases hss : img.strs with
              | nil => rw [hss] at h2; simp at h2
              | cons a as =>
                rw [hss] at h2
                simp at h2
                subst h2
                exact absurd e (hf.first _ _ hss)
            · exact ⟨_, e, by rw [hv]; exact MapImg.empty_fits H⟩
          · exact h3.some hv
        obtain ⟨x, hx, hfx⟩ := this
        rw [hx]
        dsimp only
        simp only [mapGetMem, bind_assoc, pure_bind]
        have hmem : ∀ b ∈ x.blocks, b ∈ img.blocks := by
          intro b hb
          refine (img.blocks_strs).mem_iff.mpr (List.mem_append_left _ (List.mem_flatMap.mpr ⟨i, List.mem_of_getElem? h2, ?_⟩))
          simp [StrImg.blocks, hx, hb]
        refine touch_in (fun b hb => hmem b (MapImg.mem_array b hb)) ?_
        refine touch_in (fun b hb => hmem b (MapImg.mem_nodes b hb)) ?_
        rw [hfx.get s]
        cases hj : m.values.idxOf? s with
        | some j =>
          rw [hj] at h
          cases h
          exact Does.pure (.refl _) ⟨rfl, rfl, hf⟩
        | none =>
          rw [hj] at h
          dsimp only at h ⊢
          rw [h3.count]
          exact addStrIdMem_does (by exact hf) h2 h3 hj (h5 s) h

/-! ### integers -/

theorem addToIntegerMap_does {img : CfgImg} {k : Nat} {i : IntImg} {m : IntMap} {s : Int} (hk : img.ints[k]? = some i)
    (hi : FitsInt m i) : Does (addToIntegerMapMem img img.intArray k s) img.blocks
      (fun img' M => M = img'.blocks ∧ ∃ i', img' = { img with ints := img.ints.set k i' } ∧
        FitsInt { m with values := m.values ++ [s] } i') := by
  obtain ⟨R, h1, h2⟩ := set_flat IntImg.blocks img.ints k i hk
  unfold addToIntegerMapMem
  refine touch_in mem_intArray ?_
  rw [hk]
  dsimp only
  have ha : i.array = none ↔ i.values = [] := by rw [hi.values]; exact hi.arr
  refine growSubs_does (L' := i.name :: (R ++ (img.intArray.toList ++ img.noInts))) (isSome_iff ha) ?_ fun b => ?_
  · refine (img.blocks_ints).trans ((h1.append_right _).trans ?_)
    simp only [IntImg.blocks]
    blocks
  · refine Does.pure ?_ ⟨rfl, _, rfl, hi.var, by simp [hi.values], by simp⟩
    refine List.Perm.trans ?_ (CfgImg.blocks_ints _).symm
    refine List.Perm.trans ?_ ((h2 _).append_right _).symm
    simp only [IntImg.blocks, CfgImg.noInts, Option.toList]
    blocks

theorem addIntIdMem_does {H : Str → Nat} {cfg : Config} {img : CfgImg} {k : Nat} {i : IntImg} {m : IntMap} {v : AttrVar} {s : Int}
    {always : Bool} {maps : List IntMap} {r : Nat × Config} (hf : FitsCfg H { cfg with intMaps := maps } img)
    (hk : img.ints[k]? = some i) (hi : FitsInt m i)
    (hu : ∀ i', FitsInt { m with values := m.values ++ [s] } i' → List.Forall₂ FitsInt (appendInt maps v.var s) (img.ints.set k i'))
    (h : addIntId cfg v s always maps m.values.length = .ok r) :
    Does (addIntIdMem cfg img img.intArray k v s always maps m.values.length) img.blocks (KeepsC H r) := by
  have add : Does (do
      let img ← addToIntegerMapMem img img.intArray k s
      pure ((m.values.length, { cfg with intMaps := appendInt maps v.var s }), img)) img.blocks
      (KeepsC H (m.values.length, { cfg with intMaps := appendInt maps v.var s })) := by
    refine Does.seq (P := img.blocks) (L' := []) (by simp) (addToIntegerMap_does hk hi) ?_
    rintro _ M ⟨rfl, i', rfl, hi'⟩
    refine Does.pure (by simp) ⟨rfl, rfl, ?_⟩
    refine { hf with ints := hu i' hi', intArr := ?_ }
    dsimp only
    rw [hf.intArr]
    simp
  simp only [addIntId] at h
  simp only [addIntIdMem]
  cases hd : getDomain cfg v.var with
  | error e => rw [hd] at h; cases h
  | ok d =>
    rw [hd] at h
    refine Does.lift rfl ?_
    have hd' : getDomain { cfg with intMaps := maps } v.var = .ok d := hd
    refine touchDomain_does hf hd' ?_
    dsimp only at h
    cases always with
    | true => cases h; exact add
    | false =>
      simp only [Bool.false_eq_true, if_false] at h ⊢
      cases hm : d.bound.smax with
      | error e => rw [hm] at h; cases h
      | ok smax =>
        rw [hm] at h
        refine Does.lift rfl ?_
        refine touch_in mem_intArray ?_
        dsimp only at h
        split
        · rename_i hx
          rw [if_pos hx] at h
          cases h
          exact Does.pure (.refl _) ⟨rfl, rfl, hf⟩
        · rename_i hx
          rw [if_neg hx] at h
          cases h
          exact add

theorem getIdForIenumMem_does {H : Str → Nat} {cfg : Config} {img : CfgImg} {v : AttrVar} {s : Int} {always : Bool} {r : Nat × Config}
    (hf : FitsCfg H cfg img) (h : getIdForIenum cfg v s always = .ok r) :
    Does (getIdForIenumMem cfg img v s always) img.blocks (KeepsC H r) := by
  simp only [getIdForIenum] at h
  simp only [getIdForIenumMem]
  refine touch_in mem_intArray ?_
  cases hm : findIntMap cfg.intMaps v.var with
  | none =>
    rw [hm] at h
    dsimp only at h
    obtain ⟨h1, h2⟩ := findInt_none hf.ints hm
    rw [h1]
    dsimp only
    simp only [addIntegerMapMem, bind_assoc, pure_bind]
    refine growSubs_does (L' := img.ints.flatMap IntImg.blocks ++ img.noInts) (isSome_iff hf.intArr) ?_ fun a => Does.malloc fun n => ?_
    · exact (img.blocks_ints).trans (by blocks)
    · let i0 : IntImg := { var := v.var, name := n, values := [], array := none }
      let img' : CfgImg := { img with intArray := some a, ints := img.ints ++ [i0] }
      have hlen : img'.ints.length - 1 = img.ints.length := by simp [img']
      have hi : FitsInt { attr := v, values := [] } i0 := ⟨rfl, rfl, by simp [i0]⟩
      have hfit : FitsCfg H { cfg with intMaps := cfg.intMaps ++ [{ attr := v, values := [] }] } img' :=
        { hf with ints := List.rel_append hf.ints (.cons hi .nil), intArr := by simp [img'] }
      have hk : img'.ints[img'.ints.length - 1]? = some i0 := by
        rw [hlen]; simp [img']
      have hb : (n :: a :: (img.ints.flatMap IntImg.blocks ++ img.noInts)).Perm img'.blocks := by
        refine List.Perm.trans ?_ (img'.blocks_ints).symm
        have : i0.blocks = [n] := by simp [i0, IntImg.blocks]
        simp only [img', List.flatMap_append, List.flatMap_cons, List.flatMap_nil, this, CfgImg.noInts, Option.toList]
        blocks
      refine Does.perm ?_ hb
      refine addIntIdMem_does (m := { attr := v, values := [] }) hfit hk hi ?_ h
      intro i' hi'
      rw [hlen, h2 _ _ rfl]
      have : img'.ints.set img.ints.length i' = img.ints ++ [i'] := by simp [img']
      rw [this]
      exact List.rel_append hf.ints (.cons hi' .nil)
  | some m =>
    rw [hm] at h
    dsimp only at h
    obtain ⟨k, i, h1, h2, h3, h5⟩ := findInt_some hf.ints hm
    rw [h1]
    dsimp only
    refine touch_in (fun b hb => ?_) ?_
    · refine (img.blocks_ints).mem_iff.mpr (List.mem_append_left _ (List.mem_flatMap.mpr ⟨i, List.mem_of_getElem? h2, ?_⟩))
      exact List.mem_cons_of_mem _ hb
    rw [h3.values]
    cases hj : m.values.idxOf? s with
    | some j =>
      rw [hj] at h
      cases h
      exact Does.pure (.refl _) ⟨rfl, rfl, hf⟩
    | none =>
      rw [hj] at h
      dsimp only at h ⊢
      exact addIntIdMem_does (by exact hf) h2 h3 (h5 s) h

/-! ### the passes -/

/-- a call that keeps the tables, then the rest -/
theorem keeps_bind {α β : Type} {H : Str → Nat} {p : Mem ((α × Config) × CfgImg)} {f : (α × Config) × CfgImg → Mem β} {r : α × Config}
    {img : CfgImg} {Q : β → List Nat → Prop} (hp : Does p img.blocks (KeepsC H r))
    (K : ∀ img', FitsCfg H r.2 img' → Does (f (r, img')) img'.blocks Q) : Does (p >>= f) img.blocks Q := by
  refine Does.seq (P := img.blocks) (L' := []) (by simp) hp ?_
  rintro ⟨q, img'⟩ M ⟨h1, rfl, h3⟩
  dsimp only at h1
  subst h1
  rw [List.append_nil]
  exact K img' h3

theorem assignStrListMem_does {H : Str → Nat} {v : AttrVar} {always : Bool} (ss : List StrVal) : ∀ {cfg : Config} {img : CfgImg}
    {r : List StrVal × Config}, FitsCfg H cfg img → assignStrList cfg v always ss = .ok r →
    Does (assignStrListMem H cfg img v always ss) img.blocks (KeepsC H r) := by
  induction ss with
  | nil => intro cfg img r hf h; cases h; exact Does.pure (.refl _) ⟨rfl, rfl, hf⟩
  | cons s ss ih =>
    intro cfg img r hf h
    simp only [assignStrList] at h
    simp only [assignStrListMem]
    cases h1 : getIdForString cfg v s.string always with
    | error e => rw [h1] at h; cases h
    | ok a =>
      obtain ⟨id, cfg1⟩ := a
      rw [h1] at h
      dsimp only at h
      cases h2 : assignStrList cfg1 v always ss with
      | error e => rw [h2] at h; cases h
      | ok b =>
        obtain ⟨l, cfg2⟩ := b
        rw [h2] at h
        cases h
        refine keeps_bind (getIdForStringMem_does hf h1) fun img1 hf1 => ?_
        refine keeps_bind (ih hf1 h2) fun img2 hf2 => ?_
        exact Does.pure (.refl _) ⟨rfl, rfl, hf2⟩

theorem assignStrPredMem_does {H : Str → Nat} {always : Bool} (p : Pred) {cfg : Config} {img : CfgImg} {r : Pred × Config}
    (hf : FitsCfg H cfg img) (h : assignStrPred cfg always p = .ok r) :
    Does (assignStrPredMem H cfg img always p) img.blocks (KeepsC H r) := by
  unfold assignStrPred at h
  split at h <;> simp only [assignStrPredMem]
  · rename_i f
    cases h1 : getIdForString cfg f.attr f.ns.string always with
    | error e => rw [h1] at h; cases h
    | ok a =>
      rw [h1] at h; cases h
      exact keeps_bind (getIdForStringMem_does hf h1) fun img1 hf1 => Does.pure (.refl _) ⟨rfl, rfl, hf1⟩
  · rename_i op v s
    cases h1 : getIdForString cfg v s.string always with
    | error e => rw [h1] at h; cases h
    | ok a =>
      rw [h1] at h; cases h
      exact keeps_bind (getIdForStringMem_does hf h1) fun img1 hf1 => Does.pure (.refl _) ⟨rfl, rfl, hf1⟩
  · rename_i op v ss
    cases h1 : assignStrList cfg v always ss with
    | error e => rw [h1] at h; cases h
    | ok a =>
      rw [h1] at h; cases h
      exact keeps_bind (assignStrListMem_does ss hf h1) fun img1 hf1 => Does.pure (.refl _) ⟨rfl, rfl, hf1⟩
  · rename_i op s v
    cases h1 : getIdForString cfg v s.string always with
    | error e => rw [h1] at h; cases h
    | ok a =>
      rw [h1] at h; cases h
      exact keeps_bind (getIdForStringMem_does hf h1) fun img1 hf1 => Does.pure (.refl _) ⟨rfl, rfl, hf1⟩
  · rename_i op v ss
    cases h1 : assignStrList cfg v always ss with
    | error e => rw [h1] at h; cases h
    | ok a =>
      rw [h1] at h; cases h
      exact keeps_bind (assignStrListMem_does ss hf h1) fun img1 hf1 => Does.pure (.refl _) ⟨rfl, rfl, hf1⟩
  · cases h
  · cases h
  · cases h
    exact Does.pure (.refl _) ⟨rfl, rfl, hf⟩

theorem assignStrMem_does {H : Str → Nat} {always : Bool} (e : Expr) : ∀ {cfg : Config} {img : CfgImg} {r : Expr × Config},
    FitsCfg H cfg img → assignStr cfg always e = .ok r → Does (assignStrMem H cfg img always e) img.blocks (KeepsC H r) := by
  induction e with
  | leaf p =>
    intro cfg img r hf h
    simp only [assignStr] at h
    cases h1 : assignStrPred cfg always p with
    | error e => rw [h1] at h; cases h
    | ok a =>
      rw [h1] at h; cases h
      exact keeps_bind (assignStrPredMem_does p hf h1) fun img1 hf1 => Does.pure (.refl _) ⟨rfl, rfl, hf1⟩
  | not e ih =>
    intro cfg img r hf h
    simp only [assignStr] at h
    cases h1 : assignStr cfg always e with
    | error e => rw [h1] at h; cases h
    | ok a =>
      rw [h1] at h; cases h
      exact keeps_bind (ih hf h1) fun img1 hf1 => Does.pure (.refl _) ⟨rfl, rfl, hf1⟩
  | and l r ihl ihr =>
    intro cfg img q hf h
    simp only [assignStr] at h
    cases h1 : assignStr cfg always l with
    | error e => rw [h1] at h; cases h
    | ok a =>
      obtain ⟨x, cfg1⟩ := a
      rw [h1] at h
      dsimp only at h
      cases h2 : assignStr cfg1 always r with
      | error e => rw [h2] at h; cases h
      | ok b =>
        rw [h2] at h; cases h
        exact keeps_bind (ihl hf h1) fun img1 hf1 => keeps_bind (ihr hf1 h2) fun img2 hf2 => Does.pure (.refl _) ⟨rfl, rfl, hf2⟩
  | or l r ihl ihr =>
    intro cfg img q hf h
    simp only [assignStr] at h
    cases h1 : assignStr cfg always l with
    | error e => rw [h1] at h; cases h
    | ok a =>
      obtain ⟨x, cfg1⟩ := a
      rw [h1] at h
      dsimp only at h
      cases h2 : assignStr cfg1 always r with
      | error e => rw [h2] at h; cases h
      | ok b =>
        rw [h2] at h; cases h
        exact keeps_bind (ihl hf h1) fun img1 hf1 => keeps_bind (ihr hf1 h2) fun img2 hf2 => Does.pure (.refl _) ⟨rfl, rfl, hf2⟩

theorem assignIenumPredMem_does {H : Str → Nat} {always : Bool} (p : Pred) {cfg : Config} {img : CfgImg} {r : Pred × Config}
    (hf : FitsCfg H cfg img) (h : assignIenumPred cfg always p = .ok r) :
    Does (assignIenumPredMem cfg img always p) img.blocks (KeepsC H r) := by
  unfold assignIenumPred at h
  split at h <;> simp only [assignIenumPredMem]
  · rename_i op v i
    cases hd : getDomain cfg v.var with
    | error e => rw [hd] at h; cases h
    | ok d =>
      rw [hd] at h
      refine Does.lift rfl (touchDomain_does hf hd ?_)
      dsimp only at h
      split
      · rename_i ht
        rw [if_pos ht] at h
        cases h1 : getIdForIenum cfg v i always with
        | error e => rw [h1] at h; cases h
        | ok a =>
          rw [h1] at h; cases h
          exact keeps_bind (getIdForIenumMem_does hf h1) fun img1 hf1 => Does.pure (.refl _) ⟨rfl, rfl, hf1⟩
      · rename_i ht
        rw [if_neg ht] at h
        cases h
        exact Does.pure (.refl _) ⟨rfl, rfl, hf⟩
  · cases h
    exact Does.pure (.refl _) ⟨rfl, rfl, hf⟩

theorem assignIenumMem_does {H : Str → Nat} {always : Bool} (e : Expr) : ∀ {cfg : Config} {img : CfgImg} {r : Expr × Config},
    FitsCfg H cfg img → assignIenum cfg always e = .ok r → Does (assignIenumMem cfg img always e) img.blocks (KeepsC H r) := by
  induction e with
  | leaf p =>
    intro cfg img r hf h
    simp only [assignIenum] at h
    cases h1 : assignIenumPred cfg always p with
    | error e => rw [h1] at h; cases h
    | ok a =>
      rw [h1] at h; cases h
      exact keeps_bind (assignIenumPredMem_does p hf h1) fun img1 hf1 => Does.pure (.refl _) ⟨rfl, rfl, hf1⟩
  | not e ih =>
    intro cfg img r hf h
    simp only [assignIenum] at h
    cases h1 : assignIenum cfg always e with
    | error e => rw [h1] at h; cases h
    | ok a =>
      rw [h1] at h; cases h
      exact keeps_bind (ih hf h1) fun img1 hf1 => Does.pure (.refl _) ⟨rfl, rfl, hf1⟩
  | and l r ihl ihr =>
    intro cfg img q hf h
    simp only [assignIenum] at h
    cases h1 : assignIenum cfg always l with
    | error e => rw [h1] at h; cases h
    | ok a =>
      obtain ⟨x, cfg1⟩ := a
      rw [h1] at h
      dsimp only at h
      cases h2 : assignIenum cfg1 always r with
      | error e => rw [h2] at h; cases h
      | ok b =>
        rw [h2] at h; cases h
        exact keeps_bind (ihl hf h1) fun img1 hf1 => keeps_bind (ihr hf1 h2) fun img2 hf2 => Does.pure (.refl _) ⟨rfl, rfl, hf2⟩
  | or l r ihl ihr =>
    intro cfg img q hf h
    simp only [assignIenum] at h
    cases h1 : assignIenum cfg always l with
    | error e => rw [h1] at h; cases h
    | ok a =>
      obtain ⟨x, cfg1⟩ := a
      rw [h1] at h
      dsimp only at h
      cases h2 : assignIenum cfg1 always r with
      | error e => rw [h2] at h; cases h
      | ok b =>
        rw [h2] at h; cases h
        exact keeps_bind (ihl hf h1) fun img1 hf1 => keeps_bind (ihr hf1 h2) fun img2 hf2 => Does.pure (.refl _) ⟨rfl, rfl, hf2⟩

/-! ### predicates -/

theorem exprs_eq (t : RB (AExpr × Nat)) : t.exprs = t.mapData (·.1) := by
  induction t with
  | nil => rfl
  | node c x l r ihl ihr => simp [RB.exprs, RB.mapData, ihl, ihr]

theorem nodeList_perm (t : RB (AExpr × Nat)) : t.nodeList.Perm (t.toList.map (·.2)) := by
  induction t with
  | nil => exact .refl _
  | node c x l r ihl ihr =>
    simp only [RB.nodeList, RB.toList, List.map_append, List.map_cons]
    refine ((ihl.append ihr).cons _).trans ?_
    exact List.perm_middle.symm

theorem pairCmpOK : RB.CmpOK pairCmp :=
  ⟨fun a => exprCmpOK.refl a.1, fun a b c => exprCmpOK.trans a.1 b.1 c.1, fun a b => exprCmpOK.swap a.1 b.1,
    fun a b c => exprCmpOK.congr a.1 b.1 c.1⟩

theorem rbInsert_pair {t : RB (AExpr × Nat)} {n : AExpr} {b : Nat} {m : RB AExpr} (hv : RB.Valid exprCmp t.exprs)
    (hn : RB.find exprCmp n t.exprs = none) (h : RB.insert exprCmp n t.exprs = .ok m) :
    ∃ t', RB.insert pairCmp (n, b) t = .ok t' ∧ t'.exprs = m ∧ t'.nodeList.Perm (b :: t.nodeList) := by
  have hv' : RB.Valid pairCmp t := RB.valid_map (f := Prod.fst) (cmp := exprCmp) (by rw [← exprs_eq]; exact hv)
  obtain ⟨t', h1, _, h3⟩ := RB.insert_valid pairCmpOK (data := (n, b)) hv'
  have h4 := RB.insert_map Prod.fst exprCmp ((n, b) : AExpr × Nat) t
  have h5 : RB.insert (fun a b : AExpr × Nat => exprCmp a.1 b.1) (n, b) t = .ok t' := h1
  rw [h5] at h4
  have h6 : RB.insert exprCmp n t.exprs = .ok t'.exprs := by
    rw [exprs_eq, exprs_eq]; exact h4
  rw [h] at h6
  refine ⟨t', h1, by cases h6; rfl, ?_⟩
  rcases h3 with ⟨_, x, hx, hxe⟩ | ⟨_, L, R, hl, hr⟩
  · exfalso
    have := RB.find_none exprCmpOK hv.ordered hn x.1 (by rw [exprs_eq, RB.toList_map]; exact List.mem_map_of_mem hx)
    exact this hxe
  · refine (nodeList_perm t').trans ?_
    refine List.Perm.trans ?_ ((nodeList_perm t).symm.cons b)
    rw [hl, hr]
    simp only [List.map_append, List.map_cons]
    exact List.perm_middle

/-- the result is this one, and only the predicate map has changed -/
def KeepsP (H : Str → Nat) (cfg : Config) (r : AExpr × PredMap) (q : (AExpr × PredMap) × CfgImg) (M : List Nat) : Prop :=
  q.1 = r ∧ M = q.2.blocks ∧ FitsCfg H { cfg with predMap := r.2 } q.2

theorem mem_preds {img : CfgImg} : ∀ b ∈ img.preds.nodeList, b ∈ img.blocks := by
  intro b hb
  simp only [CfgImg.blocks, List.mem_cons, List.mem_append]
  exact .inr (.inr (.inr (.inr (.inr (.inr (.inr (.inr (.inr hb))))))))

theorem assignNodeMem_does {H : Str → Nat} {cfg : Config} {img : CfgImg} {n : AExpr} {r : AExpr × PredMap}
    (hf : FitsCfg H cfg img) (h : assignNode cfg.predMap n = .ok r) :
    Does (assignNodeMem cfg.predMap img n) img.blocks (KeepsP H cfg r) := by
  have hpm : PMOK r.2 := by
    obtain ⟨g, pm', h1, h2, _⟩ := assignNode_ok hf.pm n
    rw [h] at h1
    cases h1
    exact h2
  simp only [assignNode] at h
  simp only [assignNodeMem]
  refine touch_one (by simp [CfgImg.blocks]) (touch_one (by simp [CfgImg.blocks]) (touch_in mem_preds ?_))
  have hfind : RB.find exprCmp n cfg.predMap.m = (RB.find pairCmp (n, 0) img.preds).map (·.1) := by
    rw [← hf.preds, exprs_eq]
    exact RB.find_map Prod.fst exprCmp ((n, 0) : AExpr × Nat) img.preds
  cases ho : RB.find pairCmp (n, 0) img.preds with
  | none =>
    rw [ho] at hfind
    simp only [Option.map_none] at hfind
    rw [hfind] at h
    dsimp only at h ⊢
    cases hi : RB.insert exprCmp (n.setGid cfg.predMap.predCount) cfg.predMap.m with
    | error e => rw [hi] at h; cases h
    | ok m =>
      rw [hi] at h
      cases h
      refine Does.malloc fun b => ?_
      have hf2 : RB.find exprCmp (n.setGid cfg.predMap.predCount) img.preds.exprs = none := by
        rw [hf.preds]
        by_contra hc
        obtain ⟨x, hx⟩ := Option.ne_none_iff_exists'.mp hc
        obtain ⟨hm, he⟩ := RB.find_some hx
        have := RB.find_none exprCmpOK hf.pm.valid.ordered hfind x hm
        apply this
        rw [exprCmp_eq] at he ⊢
        rw [he, exprKey_setGid]
      obtain ⟨t', h1, h2, h3⟩ := rbInsert_pair (b := b) (by rw [hf.preds]; exact hf.pm.valid) hf2 (by rw [hf.preds]; exact hi)
      refine Does.lift h1 ?_
      refine Does.pure (L' := CfgImg.blocks { img with preds := t' }) ?_ ⟨by rw [h2], rfl, ?_⟩
      · simp only [CfgImg.blocks]
        have h3 := List.perm_iff_count.mp h3
        rw [List.perm_iff_count]
        intro x
        have := h3 x
        simp only [List.count_cons, List.count_append] at this ⊢
        omega
      · refine { hf with preds := ?_, pm := hpm, predCount := ?_ }
        · exact h2
        · dsimp only
          rw [h3.length_eq, List.length_cons, hf.predCount]
  | some f =>
    rw [ho] at hfind
    simp only [Option.map_some] at hfind
    rw [hfind] at h
    dsimp only at h ⊢
    cases hmemo : cfg.predMap.memo[f.1.gid]? with
    | none => rw [hmemo] at h; cases h
    | some o =>
      rw [hmemo] at h
      cases o with
      | none =>
        cases h
        exact Does.pure (.refl _) ⟨rfl, rfl, { hf with preds := hf.preds, pm := hpm, predCount := hf.predCount }⟩
      | some k =>
        cases h
        exact Does.pure (.refl _) ⟨rfl, rfl, hf⟩

theorem keepsP_bind {β : Type} {H : Str → Nat} {cfg : Config} {p : Mem ((AExpr × PredMap) × CfgImg)}
    {f : (AExpr × PredMap) × CfgImg → Mem β} {r : AExpr × PredMap}
    {img : CfgImg} {Q : β → List Nat → Prop} (hp : Does p img.blocks (KeepsP H cfg r))
    (K : ∀ img', FitsCfg H { cfg with predMap := r.2 } img' → Does (f (r, img')) img'.blocks Q) : Does (p >>= f) img.blocks Q := by
  refine Does.seq (P := img.blocks) (L' := []) (by simp) hp ?_
  rintro ⟨q, img'⟩ M ⟨h1, rfl, h3⟩
  dsimp only at h1
  subst h1
  rw [List.append_nil]
  exact K img' h3

theorem assignPredsMem_does {H : Str → Nat} (e : Expr) : ∀ {cfg : Config} {img : CfgImg} {r : AExpr × PredMap},
    FitsCfg H cfg img → assignPred cfg.predMap e = .ok r → Does (assignPredsMem cfg.predMap img e) img.blocks (KeepsP H cfg r) := by
  induction e with
  | leaf p => intro cfg img r hf h; exact assignNodeMem_does hf h
  | not e ih =>
    intro cfg img r hf h
    simp only [assignPred] at h
    cases h1 : assignPred cfg.predMap e with
    | error e => rw [h1] at h; cases h
    | ok a =>
      rw [h1] at h
      exact keepsP_bind (ih hf h1) fun img1 hf1 =>
        (assignNodeMem_does (cfg := { cfg with predMap := a.2 }) hf1 h).mono fun _ _ q => q
  | and l r ihl ihr =>
    intro cfg img q hf h
    simp only [assignPred] at h
    cases h1 : assignPred cfg.predMap l with
    | error e => rw [h1] at h; cases h
    | ok a =>
      obtain ⟨x, pm1⟩ := a
      rw [h1] at h
      dsimp only at h
      cases h2 : assignPred pm1 r with
      | error e => rw [h2] at h; cases h
      | ok b =>
        rw [h2] at h
        exact keepsP_bind (ihl hf h1) fun img1 hf1 => keepsP_bind (ihr (cfg := { cfg with predMap := pm1 }) hf1 h2) fun img2 hf2 =>
          (assignNodeMem_does (cfg := { cfg with predMap := b.2 }) hf2 h).mono fun _ _ q => q
  | or l r ihl ihr =>
    intro cfg img q hf h
    simp only [assignPred] at h
    cases h1 : assignPred cfg.predMap l with
    | error e => rw [h1] at h; cases h
    | ok a =>
      obtain ⟨x, pm1⟩ := a
      rw [h1] at h
      dsimp only at h
      cases h2 : assignPred pm1 r with
      | error e => rw [h2] at h; cases h
      | ok b =>
        rw [h2] at h
        exact keepsP_bind (ihl hf h1) fun img1 hf1 => keepsP_bind (ihr (cfg := { cfg with predMap := pm1 }) hf1 h2) fun img2 hf2 =>
          (assignNodeMem_does (cfg := { cfg with predMap := b.2 }) hf2 h).mono fun _ _ q => q

/-- the nodes on the way to the right -/
def RB.spine : RB (AExpr × Nat) → Nat
  | .nil => 0
  | .node _ _ _ r => r.spine + 1

theorem spine_le (t : RB (AExpr × Nat)) : t.spine ≤ t.size := by
  induction t with
  | nil => exact Nat.le_refl _
  | node c x l r _ ih => simp only [RB.spine, RB.size]; omega

theorem rbDeleteLoop_does (k : Nat) : ∀ t : RB (AExpr × Nat), 2 * t.size ≤ k + t.spine → Gone (rbDeleteLoop k t) t.nodeList := by
  induction k with
  | zero =>
    intro t hk
    cases t with
    | nil => exact Does.pure (.refl _) rfl
    | node c x l r =>
      have := spine_le (.node c x l r)
      simp only [RB.size] at *
      omega
  | succ k ih =>
    intro t hk
    cases t with
    | nil => exact Does.pure (.refl _) rfl
    | node c x l r =>
      cases l with
      | nil =>
        simp only [rbDeleteLoop]
        refine touch_one (by simp [RB.nodeList]) ?_
        refine Does.free (L' := r.nodeList) (by simp [RB.nodeList]) (ih r ?_)
        simp only [RB.size, RB.spine] at hk ⊢
        omega
      | node d y a b =>
        simp only [rbDeleteLoop]
        refine touch_one (by simp [RB.nodeList]) (touch_one (by simp [RB.nodeList]) ?_)
        refine Does.perm (ih _ ?_) ?_
        · simp only [RB.size, RB.spine] at hk ⊢
          omega
        · simp only [RB.nodeList]
          blocks

theorem freePredMap_does (img : CfgImg) : Gone (freePredMapMem img) (img.predMap :: img.rbtree :: img.preds.nodeList) := by
  unfold freePredMapMem
  refine touch_one (by simp) (touch_one (by simp) ?_)
  refine Does.seq (P := img.preds.nodeList) (L' := [img.predMap, img.rbtree]) (by blocks) (rbDeleteLoop_does _ _ (by omega)) ?_
  rintro _ M rfl
  exact Does.free (L' := [img.predMap]) (by blocks) (Does.freeLast (.refl _))

/-! ### the end -/

theorem freeDoms_does (ds : List (Nat × Nat)) : Gone (freeDomsMem ds) (ds.flatMap fun d => [d.1, d.2]) := by
  induction ds with
  | nil => exact Does.pure (.refl _) rfl
  | cons d ds ih =>
    simp only [freeDomsMem, List.flatMap_cons]
    exact Does.free (L' := d.1 :: ds.flatMap fun d => [d.1, d.2]) (by blocks) (Does.free (.refl _) ih)

theorem freeInts_does (ms : List IntImg) : Gone (freeIntsMem ms) (ms.flatMap IntImg.blocks) := by
  induction ms with
  | nil => exact Does.pure (.refl _) rfl
  | cons m ms ih =>
    simp only [freeIntsMem, List.flatMap_cons, IntImg.blocks]
    exact Does.free (L' := m.array.toList ++ ms.flatMap IntImg.blocks) (by blocks) (Gone.then (freeOpt_does _) ih (.refl _))

theorem freeStrs_does (ms : List StrImg) (h : ∀ m ∈ ms, m.map ≠ none) : Gone (freeStrsMem ms) (ms.flatMap StrImg.blocks) := by
  induction ms with
  | nil => exact Does.pure (.refl _) rfl
  | cons m ms ih =>
    simp only [freeStrsMem, List.flatMap_cons, StrImg.blocks]
    obtain ⟨x, hx⟩ := Option.ne_none_iff_exists'.mp (h m (by simp))
    rw [hx]
    dsimp only
    exact Does.free (L' := x.blocks ++ ms.flatMap StrImg.blocks) (by blocks)
      (Gone.then (mapDeinitMem_does x) (ih fun m hm => h m (by simp [hm])) (.refl _))

theorem CfgImg.free_does {img : CfgImg} (hd : img.domArray = none → img.doms = []) (hi : img.intArray = none → img.ints = [])
    (hs : img.strArray = none → img.strs = []) (hm : ∀ m ∈ img.strs, m.map ≠ none) : Gone img.free img.blocks := by
  unfold CfgImg.free
  refine touch_one (by simp [CfgImg.blocks]) ?_
  have d1 : Gone img.freeDomPart (img.domArray.toList ++ img.doms.flatMap fun d => [d.1, d.2]) := by
    unfold CfgImg.freeDomPart
    cases ha : img.domArray with
    | none => rw [hd ha]; exact Does.pure (.refl _) rfl
    | some a =>
      refine touch_one (by simp) ?_
      exact Gone.then (freeDoms_does _) (Does.freeLast (.refl _)) (by simp only [Option.toList]; blocks)
  have d2 : Gone img.freeIntPart (img.intArray.toList ++ img.ints.flatMap IntImg.blocks) := by
    unfold CfgImg.freeIntPart
    cases ha : img.intArray with
    | none => rw [hi ha]; exact Does.pure (.refl _) rfl
    | some a =>
      refine touch_one (by simp) ?_
      exact Gone.then (freeInts_does _) (Does.freeLast (.refl _)) (by simp only [Option.toList]; blocks)
  have d3 : Gone img.freeStrPart (img.strArray.toList ++ img.strs.flatMap StrImg.blocks) := by
    unfold CfgImg.freeStrPart
    cases ha : img.strArray with
    | none => rw [hs ha]; exact Does.pure (.refl _) rfl
    | some a =>
      refine touch_one (by simp) ?_
      exact Gone.then (freeStrs_does _ hm) (Does.freeLast (.refl _)) (by simp only [Option.toList]; blocks)
  refine Gone.then d1 (Gone.then d2 (Gone.then d3 (Gone.then (freePredMap_does img) (Does.freeLast (.refl _)) (.refl _)) (.refl _)) (.refl _)) ?_
  simp only [CfgImg.blocks]
  blocks

/-! ### the calls -/

theorem mem_domRead {img : CfgImg} : ∀ b ∈ img.domRead, b ∈ img.blocks := by
  intro b hb
  simp only [CfgImg.domRead, List.mem_cons, List.mem_append] at hb
  simp only [CfgImg.blocks, List.mem_cons, List.mem_append]
  rcases hb with h | h | h
  · exact .inl h
  · exact .inr (.inr (.inr (.inl h)))
  · exact .inr (.inr (.inr (.inr (.inl h))))

theorem mem_strRead {img : CfgImg} : ∀ b ∈ img.strRead, b ∈ img.blocks := by
  intro b hb
  simp only [CfgImg.strRead, List.mem_append, List.mem_map] at hb
  rcases hb with h | ⟨m, hm, rfl⟩
  · exact mem_strArray b h
  · exact (img.blocks_strs).mem_iff.mpr (List.mem_append_left _ (List.mem_flatMap.mpr ⟨m, hm, by simp [StrImg.blocks]⟩))

theorem finishSubMem_does {H : Str → Nat} {cfg : Config} {img : CfgImg} {id : Nat} {e : Expr} {r : Sub × Config}
    (hf : FitsCfg H cfg img) (h : finishSub cfg id e = .ok r) : Does (finishSubMem cfg img id e) img.blocks (KeepsC H r) := by
  simp only [finishSub] at h
  simp only [finishSubMem]
  cases h1 : assignPred cfg.predMap e with
  | error x => rw [h1] at h; cases h
  | ok a =>
    obtain ⟨ae, pm⟩ := a
    rw [h1] at h
    dsimp only at h
    cases h2 : makeSub { cfg with predMap := pm } id ae with
    | error x => rw [h2] at h; cases h
    | ok s =>
      rw [h2] at h
      cases h
      refine keepsP_bind (assignPredsMem_does e hf h1) fun img1 hf1 => ?_
      refine touch_in mem_domRead (Does.lift h2 ?_)
      exact Does.pure (.refl _) ⟨rfl, rfl, hf1⟩

theorem changeDomains_length {cfg : Config} {e : Expr} : ∀ {ds ds' : List Domain}, changeDomains cfg e ds = .ok ds' → ds'.length = ds.length := by
  intro ds
  induction ds with
  | nil => intro ds' h; cases h; rfl
  | cons d ds ih =>
    intro ds' h
    simp only [changeDomains] at h
    cases h1 : changeDomain cfg e d with
    | error x => rw [h1] at h; cases h
    | ok d' =>
      rw [h1] at h
      dsimp only at h
      cases h2 : changeDomains cfg e ds with
      | error x => rw [h2] at h; cases h
      | ok ds2 => rw [h2] at h; cases h; simp [ih h2]

theorem changeBoundaries_fits {H : Str → Nat} {cfg cfg' : Config} {img : CfgImg} {e : Expr} (hf : FitsCfg H cfg img)
    (h : changeBoundaries cfg e = .ok cfg') : FitsCfg H cfg' img := by
  simp only [changeBoundaries] at h
  cases h1 : changeDomains cfg e cfg.domains with
  | error x => rw [h1] at h; cases h
  | ok ds =>
    rw [h1] at h
    cases h
    exact { hf with doms := by rw [hf.doms, ← changeDomains_length h1] }

theorem prepareInsertMem_does {H : Str → Nat} {cfg : Config} {img : CfgImg} {id : Nat} {cs : List Constant} {e : Expr}
    {r : Option Sub × Config} (hf : FitsCfg H cfg img) (h : prepareInsert cfg id cs e = .ok r) :
    Does (prepareInsertMem H cfg img id cs e) img.blocks (KeepsC H r) := by
  simp only [prepareInsert] at h
  simp only [prepareInsertMem]
  refine touch_in mem_domRead (touch_in mem_strRead ?_)
  cases h1 : isValid cfg (assignVar cfg e) with
  | error x => rw [h1] at h; cases h
  | ok v =>
    rw [h1] at h
    refine Does.lift rfl ?_
    cases v with
    | false => cases h; exact Does.pure (.refl _) ⟨rfl, rfl, hf⟩
    | true =>
      dsimp only at h
      simp only [if_true]
      cases h2 : assignConstants cs (assignVar cfg e) with
      | none => rw [h2] at h; cases h; exact Does.pure (.refl _) ⟨rfl, rfl, hf⟩
      | some e1 =>
        rw [h2] at h
        dsimp only at h ⊢
        cases h3 : assignStr cfg false e1 with
        | error x => rw [h3] at h; cases h
        | ok a =>
          obtain ⟨e2, cfg2⟩ := a
          rw [h3] at h
          dsimp only at h
          cases h4 : assignIenum cfg2 false e2 with
          | error x => rw [h4] at h; cases h
          | ok b =>
            obtain ⟨e3, cfg3⟩ := b
            rw [h4] at h
            dsimp only at h
            cases h5 : fixFloat cfg3 (sortLists e3) with
            | error x => rw [h5] at h; cases h
            | ok e4 =>
              rw [h5] at h
              dsimp only at h
              cases h6 : finishSub cfg3 id e4 with
              | error x => rw [h6] at h; cases h
              | ok c =>
                rw [h6] at h
                cases h
                refine keeps_bind (assignStrMem_does e1 hf h3) fun img1 hf1 => ?_
                refine keeps_bind (assignIenumMem_does e2 hf1 h4) fun img2 hf2 => ?_
                refine touch_in mem_domRead (Does.lift h5 ?_)
                refine keeps_bind (finishSubMem_does hf2 h6) fun img3 hf3 => ?_
                exact Does.pure (.refl _) ⟨rfl, rfl, hf3⟩

theorem makeSubCfgMem_does {H : Str → Nat} {t t' : Tree} {img : CfgImg} {id : Nat} {cs : List Constant} {e : Expr}
    {s : Option Sub} (hf : FitsCfg H t.cfg img) (h : t.makeSub id cs e = .ok (s, t')) :
    t'.root = t.root ∧ Does (makeSubCfgMem H t.cfg img id cs e) img.blocks (KeepsC H (s, t'.cfg)) := by
  simp only [Tree.makeSub] at h
  simp only [makeSubCfgMem]
  cases h1 : varsInConfig (assignVar t.cfg e) with
  | error x => rw [h1] at h; cases h
  | ok v =>
    rw [h1] at h
    cases v with
    | false =>
      cases h
      exact ⟨rfl, touch_in mem_domRead (Does.lift rfl (Does.pure (.refl _) ⟨rfl, rfl, hf⟩))⟩
    | true =>
      dsimp only at h
      cases h3 : assignStr t.cfg true (assignVar t.cfg e) with
      | error x => rw [h3] at h; cases h
      | ok a =>
        obtain ⟨e2, cfg2⟩ := a
        rw [h3] at h
        dsimp only at h
        cases h4 : assignIenum cfg2 true e2 with
        | error x => rw [h4] at h; cases h
        | ok b =>
          obtain ⟨e3, cfg3⟩ := b
          rw [h4] at h
          dsimp only at h
          cases h5 : fixFloat cfg3 e3 with
          | error x => rw [h5] at h; cases h
          | ok e4 =>
            rw [h5] at h
            dsimp only at h
            cases h6 : exprsValid cfg3 e4 with
            | error x => rw [h6] at h; cases h
            | ok v =>
              rw [h6] at h
              cases v with
              | false =>
                cases h
                refine ⟨rfl, touch_in mem_domRead (Does.lift rfl ?_)⟩
                refine keeps_bind (assignStrMem_does _ hf h3) fun img1 hf1 => ?_
                refine keeps_bind (assignIenumMem_does e2 hf1 h4) fun img2 hf2 => ?_
                refine touch_in mem_domRead (Does.lift h5 (Does.lift h6 ?_))
                exact Does.pure (.refl _) ⟨rfl, rfl, hf2⟩
              | true =>
                dsimp only at h
                cases h2 : assignConstants cs e4 with
                | none =>
                  rw [h2] at h
                  cases h
                  refine ⟨rfl, touch_in mem_domRead (Does.lift rfl ?_)⟩
                  refine keeps_bind (assignStrMem_does _ hf h3) fun img1 hf1 => ?_
                  refine keeps_bind (assignIenumMem_does e2 hf1 h4) fun img2 hf2 => ?_
                  refine touch_in mem_domRead (Does.lift h5 (Does.lift h6 ?_))
                  simp only [if_true, h2]
                  exact Does.pure (.refl _) ⟨rfl, rfl, hf2⟩
                | some e5 =>
                  rw [h2] at h
                  dsimp only at h
                  cases h7 : changeBoundaries cfg3 (sortLists e5) with
                  | error x => rw [h7] at h; cases h
                  | ok cfg4 =>
                    rw [h7] at h
                    dsimp only at h
                    cases h8 : finishSub cfg4 id (sortLists e5) with
                    | error x => rw [h8] at h; cases h
                    | ok c =>
                      rw [h8] at h
                      cases h
                      refine ⟨rfl, touch_in mem_domRead (Does.lift rfl ?_)⟩
                      refine keeps_bind (assignStrMem_does _ hf h3) fun img1 hf1 => ?_
                      refine keeps_bind (assignIenumMem_does e2 hf1 h4) fun img2 hf2 => ?_
                      refine touch_in mem_domRead (Does.lift h5 (Does.lift h6 ?_))
                      simp only [if_true, h2]
                      refine Does.lift h7 ?_
                      refine keeps_bind (finishSubMem_does (changeBoundaries_fits hf2 h7) h8) fun img3 hf3 => ?_
                      exact Does.pure (.refl _) ⟨rfl, rfl, hf3⟩

theorem changeBoundariesMem_does {H : Str → Nat} {t t' : Tree} {img : CfgImg} {e : Expr} (hf : FitsCfg H t.cfg img)
    (h : t.changeBoundaries e = .ok t') : t'.root = t.root ∧
      Does (changeBoundariesMem H t.cfg img e) img.blocks (fun q M => q.1 = t'.cfg ∧ M = q.2.blocks ∧ FitsCfg H t'.cfg q.2) := by
  simp only [Tree.changeBoundaries] at h
  simp only [changeBoundariesMem]
  cases h3 : assignStr t.cfg true (assignVar t.cfg e) with
  | error x => rw [h3] at h; cases h
  | ok a =>
    obtain ⟨e2, cfg2⟩ := a
    rw [h3] at h
    dsimp only at h
    cases h4 : assignIenum cfg2 true e2 with
    | error x => rw [h4] at h; cases h
    | ok b =>
      obtain ⟨e3, cfg3⟩ := b
      rw [h4] at h
      dsimp only at h
      cases h5 : fixFloat cfg3 (sortLists e3) with
      | error x => rw [h5] at h; cases h
      | ok e4 =>
        rw [h5] at h
        dsimp only at h
        cases h7 : changeBoundaries cfg3 e4 with
        | error x => rw [h7] at h; cases h
        | ok cfg4 =>
          rw [h7] at h
          cases h
          refine ⟨rfl, touch_in mem_domRead ?_⟩
          refine keeps_bind (assignStrMem_does _ hf h3) fun img1 hf1 => ?_
          refine keeps_bind (assignIenumMem_does e2 hf1 h4) fun img2 hf2 => ?_
          refine touch_in mem_domRead (Does.lift h5 (touch_in mem_strRead (Does.lift h7 ?_)))
          exact Does.pure (.refl _) ⟨rfl, rfl, changeBoundaries_fits hf2 h7⟩

/-- the world is this one, and its configuration is exactly these blocks -/
def LeavesCfg (H : Str → Nat) (t : TextWorld) (w : ConfigWorld) (M : List Nat) : Prop :=
  w.world = t ∧ M = w.img.blocks ∧ FitsCfg H t.tree.cfg w.img

theorem configStep_does {H : Str → Nat} {R : Rounding} {w : ConfigWorld} {o : MemOp} {t : TextWorld}
    (hf : FitsCfg H w.world.tree.cfg w.img) (h : w.world.plainStep R o = .ok t) :
    Does (w.step H R o) w.img.blocks (LeavesCfg H t) := by
  obtain ⟨w, img⟩ := w
  cases o with
  | search =>
    cases h
    exact touch_in mem_domRead (touch_in mem_strRead (Does.pure (.refl _) ⟨rfl, rfl, hf⟩))
  | empty =>
    cases h
    simp only [ConfigWorld.step, ConfigWorld.empty]
    refine Does.seq (P := img.predMap :: img.rbtree :: img.preds.nodeList) (L' := img.config ::
      (img.domArray.toList ++ (img.doms.flatMap (fun d => [d.1, d.2]) ++ (img.intArray.toList ++ (img.ints.flatMap IntImg.blocks ++
      (img.strArray.toList ++ img.strs.flatMap StrImg.blocks)))))) (by simp only [CfgImg.blocks]; blocks) (freePredMap_does img) ?_
    rintro _ M rfl
    refine Does.malloc fun p => Does.malloc fun r => Does.pure ?_ ⟨rfl, rfl, ?_⟩
    · simp only [CfgImg.blocks, RB.nodeList]
      blocks
    · exact { hf with preds := rfl, pm := PMOK.empty, predCount := rfl }
  | call o =>
    cases o with
    | makeSub q =>
      simp only [TextWorld.plainStep, TextWorld.step, Tree.makeSubText] at h
      simp only [ConfigWorld.step, ConfigWorld.makeSub]
      cases hp : parseText q.text with
      | error e => rw [hp] at h; cases h
      | ok r =>
        rw [hp] at h
        refine Does.lift rfl ?_
        cases r with
        | none => cases h; exact Does.pure (.refl _) ⟨rfl, rfl, hf⟩
        | some e =>
          dsimp only at h ⊢
          cases hm : w.tree.makeSub q.id q.consts e with
          | error x => rw [hm] at h; cases h
          | ok a =>
            obtain ⟨so, t'⟩ := a
            rw [hm] at h
            obtain ⟨hr, hd⟩ := makeSubCfgMem_does hf hm
            refine keeps_bind hd fun img1 hf1 => ?_
            obtain ⟨c, r⟩ := t'
            dsimp only at hr
            subst hr
            cases so with
            | none => cases h; exact Does.pure (.refl _) ⟨rfl, rfl, hf1⟩
            | some s => cases h; exact Does.pure (.refl _) ⟨rfl, rfl, hf1⟩
    | changeBoundaries text =>
      simp only [TextWorld.plainStep, TextWorld.step, Tree.changeBoundariesText] at h
      simp only [ConfigWorld.step, ConfigWorld.changeBoundaries]
      cases hp : parseText text with
      | error e => rw [hp] at h; cases h
      | ok r =>
        rw [hp] at h
        refine Does.lift rfl ?_
        cases r with
        | none => cases h; exact Does.pure (.refl _) ⟨rfl, rfl, hf⟩
        | some e =>
          dsimp only at h ⊢
          cases hm : w.tree.changeBoundaries e with
          | error x => rw [hm] at h; cases h
          | ok t' =>
            rw [hm] at h
            obtain ⟨hr, hd⟩ := changeBoundariesMem_does hf hm
            refine Does.seq (P := img.blocks) (L' := []) (by simp) hd ?_
            rintro ⟨c1, img1⟩ M ⟨h1, rfl, hf1⟩
            obtain ⟨c, r⟩ := t'
            dsimp only at hr h1
            subst hr h1
            cases h
            exact Does.pure (by simp) ⟨rfl, rfl, hf1⟩
    | insertSub k =>
      simp only [TextWorld.plainStep, TextWorld.step] at h
      simp only [ConfigWorld.step, ConfigWorld.insertSub]
      cases hk : w.pool[k]? with
      | none =>
        rw [hk] at h
        cases h
        exact Does.pure (.refl _) ⟨rfl, rfl, hf⟩
      | some p =>
        obtain ⟨q, s⟩ := p
        rw [hk] at h
        dsimp only at h ⊢
        simp only [Tree.insertSub] at h
        cases hi : w.tree.root.insert R w.tree.cfg s with
        | error e => rw [hi] at h; cases h
        | ok c' =>
          rw [hi] at h
          cases h
          exact touch_in mem_domRead (Does.lift rfl (Does.pure (.refl _) ⟨rfl, rfl, hf⟩))
    | insert q =>
      simp only [TextWorld.plainStep, TextWorld.step, Tree.insertText] at h
      simp only [ConfigWorld.step, ConfigWorld.insert]
      cases hp : parseText q.text with
      | error e => rw [hp] at h; cases h
      | ok r =>
        rw [hp] at h
        refine Does.lift rfl ?_
        cases r with
        | none => cases h; exact Does.pure (.refl _) ⟨rfl, rfl, hf⟩
        | some e =>
          dsimp only at h ⊢
          simp only [Tree.insert] at h
          cases hq : prepareInsert w.tree.cfg q.id q.consts e with
          | error e => rw [hq] at h; cases h
          | ok r =>
            obtain ⟨so, cfg⟩ := r
            rw [hq] at h
            refine keeps_bind (prepareInsertMem_does hf hq) fun img1 hf1 => ?_
            cases so with
            | none => cases h; exact Does.pure (.refl _) ⟨rfl, rfl, hf1⟩
            | some s =>
              dsimp only at h ⊢
              cases hi : w.tree.root.insert R cfg s with
              | error e => rw [hi] at h; cases h
              | ok c' =>
                rw [hi] at h
                cases h
                exact touch_in mem_domRead (Does.lift rfl (Does.pure (.refl _) ⟨rfl, rfl, hf1⟩))

theorem configRun_does {H : Str → Nat} {R : Rounding} (os : List MemOp) : ∀ {w : ConfigWorld} {t : TextWorld},
    FitsCfg H w.world.tree.cfg w.img → w.world.plainRun R os = .ok t → Does (w.run H R os) w.img.blocks (LeavesCfg H t) := by
  induction os with
  | nil =>
    intro w t hf h
    cases h
    exact Does.pure (.refl _) ⟨rfl, rfl, hf⟩
  | cons o os ih =>
    intro w t hf h
    simp only [TextWorld.plainRun] at h
    cases hs : w.world.plainStep R o with
    | error x => rw [hs] at h; cases h
    | ok t1 =>
      rw [hs] at h
      refine Does.seq (P := w.img.blocks) (L' := []) (by simp) (configStep_does hf hs) ?_
      rintro w1 M ⟨rfl, rfl, g⟩
      rw [List.append_nil]
      exact ih g h

theorem addDomains_does {H : Str → Nat} (ds : List (Str × Decl × Bool)) : ∀ {img : CfgImg} {cfg : Config}, FitsCfg H cfg img →
    Does (addDomainsMem ds img) img.blocks
      (fun img' M => M = img'.blocks ∧ FitsCfg H (ds.foldl (fun cfg d => declare cfg d.1 d.2.1 d.2.2) cfg) img') := by
  induction ds with
  | nil => intro img cfg hf; exact Does.pure (.refl _) ⟨rfl, hf⟩
  | cons d ds ih =>
    intro img cfg hf
    simp only [addDomainsMem, addDomainMem, bind_assoc, pure_bind, List.foldl_cons]
    refine Does.malloc fun a => Does.malloc fun b => ?_
    refine growSubs_does (L' := b :: a :: img.config :: img.predMap :: img.rbtree :: (img.doms.flatMap (fun d => [d.1, d.2]) ++
      (img.intArray.toList ++ (img.ints.flatMap IntImg.blocks ++ (img.strArray.toList ++ (img.strs.flatMap StrImg.blocks ++
      img.preds.nodeList)))))) (isSome_iff hf.domArr) (by simp only [CfgImg.blocks]; blocks) fun c => ?_
    refine Does.perm (ih (cfg := declare cfg d.1 d.2.1 d.2.2) (img := { img with domArray := some c, doms := img.doms ++ [(a, b)] }) ?_) ?_
    · exact { hf with doms := by simp [declare, addDomain, hf.doms], domArr := by simp }
    · simp only [CfgImg.blocks, List.flatMap_append, List.flatMap_cons, List.flatMap_nil, Option.toList]
      blocks

/-! ### counting -/

theorem nodeBlocks_length {H : Str → Nat} {x : MapImg} {vals : List Str} (h : FitsMap H x vals) (hv : vals ≠ []) :
    x.blocks.length = 1 + vals.length := by
  have hb := h.room hv
  have : x.array ≠ none := fun e => hb (h.arr.mp e)
  obtain ⟨a, ha⟩ := Option.ne_none_iff_exists'.mp this
  simp only [MapImg.blocks, ha, List.length_append, List.length_map, Option.toList, List.length_singleton]
  rw [← h.ok.count, h.count]

theorem FitsCfg.count {H : Str → Nat} {cfg : Config} {img : CfgImg} (h : FitsCfg H cfg img) : img.blocks.length = cfg.blockCount := by
  have arr : ∀ {α β : Type} {a : Option Nat} {l : List α} {m : List β}, (a = none ↔ l = []) → l.length = m.length →
      a.toList.length = arrayCount m := by
    intro α β a l m h1 h2
    cases a with
    | none =>
      have := h1.mp rfl
      subst this
      simp [arrayCount, ← h2]
    | some a =>
      have : l ≠ [] := fun e => by simpa using h1.mpr e
      have : l.length ≠ 0 := by simpa using this
      simp [arrayCount, ← h2, this]
  have hd : (img.doms.flatMap fun d => [d.1, d.2]).length = 2 * cfg.domains.length := by
    rw [← h.doms]
    generalize img.doms = l
    induction l with
    | nil => rfl
    | cons d ds ih => simp only [List.flatMap_cons, List.length_append, List.length_cons, ih, List.length_nil]; omega
  have hi : (img.ints.flatMap IntImg.blocks).length = (cfg.intMaps.map fun m => 1 + arrayCount m.values).sum := by
    have := h.ints
    generalize img.ints = l at this
    generalize cfg.intMaps = k at this
    induction this with
    | nil => rfl
    | cons hm _ ih =>
      simp only [List.flatMap_cons, List.length_append, List.map_cons, List.sum_cons, ih, IntImg.blocks, List.length_cons]
      rw [arr hm.arr rfl]
      omega
  have hs : (img.strs.flatMap StrImg.blocks).length =
      (cfg.stringMaps.map fun m => 1 + arrayCount m.values + m.values.length).sum := by
    have := h.strs
    generalize img.strs = l at this
    generalize cfg.stringMaps = k at this
    induction this with
    | nil => rfl
    | @cons m i ms is hm _ ih =>
      simp only [List.flatMap_cons, List.length_append, List.map_cons, List.sum_cons, ih, StrImg.blocks, List.length_cons]
      by_cases hv : m.values = []
      · rcases hm.none hv with e | e <;> simp [e, hv, arrayCount, MapImg.blocks, MapImg.empty, HMap.empty]
      · obtain ⟨x, e, hx⟩ := hm.some hv
        have hl : m.values.length ≠ 0 := by simpa using hv
        rw [e]
        dsimp only
        rw [nodeBlocks_length hx hv]
        simp only [arrayCount, hl, if_false]
        omega
  have hip : img.ints.length = cfg.intMaps.length := h.ints.length_eq.symm
  have hsp : img.strs.length = cfg.stringMaps.length := h.strs.length_eq.symm
  simp only [CfgImg.blocks, List.length_cons, List.length_append, hd, hi, hs, h.predCount, Config.blockCount, arr h.domArr h.doms,
    arr h.intArr hip, arr h.strArr hsp]
  omega

/-! ### from the creation of the tree -/

theorem forall₂_at {α β : Type} {r : α → β → Prop} {l : List α} {m : List β} (h : List.Forall₂ r l m) {k : Nat} {a : α} {b : β}
    (ha : l[k]? = some a) (hb : m[k]? = some b) : r a b := by
  induction h generalizing k with
  | nil => cases ha
  | cons h _ ih =>
    cases k with
    | zero => cases ha; cases hb; exact h
    | succ k => exact ih ha hb

theorem configInit_does (H : Str → Nat) (cap min : Nat) (decls : List (Str × Decl × Bool)) :
    Does (ConfigWorld.init cap min decls) [] (LeavesCfg H (TextWorld.init (makeTree cap min decls))) := by
  unfold ConfigWorld.init
  simp only [makeConfigMem, bind_assoc, pure_bind]
  refine Does.malloc fun c => Does.malloc fun p => Does.malloc fun t => ?_
  have hf : FitsCfg H (makeConfig cap min) { config := c, domArray := none, doms := [], intArray := none, ints := [], strArray := none, strs := [], predMap := p, rbtree := t, preds := .nil } :=
    { doms := rfl, domArr := by simp, ints := .nil, intArr := by simp, strs := .nil, strArr := by simp, first := by simp, preds := rfl,
      pm := PMOK.empty, predCount := rfl }
  refine Does.seq (P := [c, p, t]) (L' := []) (by blocks) (addDomains_does decls hf) ?_
  rintro img M ⟨rfl, g⟩
  exact Does.pure (by simp) ⟨rfl, rfl, g⟩

theorem configRun_holds (H : Str → Nat) (R : Rounding) (cap min : Nat) (decls : List (Str × Decl × Bool)) (ops : List MemOp) (t : TextWorld)
    (h : Heap) (hh : Holds h h.live) (hrun : (TextWorld.init (makeTree cap min decls)).plainRun R ops = .ok t) :
    ∃ w0 w h0 h1, ConfigWorld.init cap min decls h = .ok (w0, h0) ∧ w0.run H R ops h0 = .ok (w, h1) ∧ w.world = t ∧
      Holds h1 (w.img.blocks ++ h.live) ∧ FitsCfg H t.tree.cfg w.img := by
  obtain ⟨w0, h0, _, e0, ⟨g1, rfl, g2⟩, hh0⟩ := Does.run (configInit_does H cap min decls) h h.live hh
  obtain ⟨w, h1, _, e1, ⟨g3, rfl, g4⟩, hh1⟩ := Does.run (configRun_does ops (w := w0) (by rw [g1]; exact g2) (by rw [g1]; exact hrun)) h0 h.live hh0
  exact ⟨w0, w, h0, h1, e0, e1, g3, hh1, g4⟩

end BeTree
