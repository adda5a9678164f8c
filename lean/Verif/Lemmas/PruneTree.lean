import Verif.Lemmas.Prune
import Verif.Lemmas.Conserve
/-
The pruning invariant of the tree, kept by insertion.
-/
namespace BeTree
open Spec

variable [Floats]

/-- every domain is well-formed -/
def DomsOK (cfg : Config) : Prop := ∀ (v : Nat) (d : Domain), cfg.domains[v]? = some d → DomAt cfg v d

mutual
/-- the pruning invariant of a cnode -/
def CNode.Pr (cfg : Config) : CNode → Prop
  | .mk _ _ pns => pns.Pr cfg
/-- the pruning invariant of the partitions -/
def PNodes.Pr (cfg : Config) : PNodes → Prop
  | .nil => True
  | .cons _ _ cd rest => cd.Pr cfg true true ∧ rest.Pr cfg
/-- the pruning invariant of a cdir: intervals inside the domain, and everything below a half is admitted by that half -/
def CDir.Pr (cfg : Config) (ol or : Bool) : CDir → Prop
  | .leaf v b c => (∃ d, BInv cfg v b ol or d) ∧ c.Pr cfg
  | .node v b c l r =>
    (∃ d, BInv cfg v b ol or d) ∧ c.Pr cfg ∧ l.var = v ∧ r.var = v ∧ l.Pr cfg ol false ∧ r.Pr cfg false or ∧
      (∀ s ∈ l.contents, Admits s l.var l.bound ol false) ∧ (∀ s ∈ r.contents, Admits s r.var r.bound false or)
end

theorem CDir.Pr.inv {cfg : Config} {ol or : Bool} {cd : CDir} (h : cd.Pr cfg ol or) :
    ∃ d, BInv cfg cd.var cd.bound ol or d := by
  cases cd <;> simp only [CDir.Pr] at h <;> exact h.1

mutual
theorem CNode.Pr.wider {cfg cfg' : Config} (hw : Wider cfg cfg') : ∀ {c : CNode}, c.Pr cfg → c.Pr cfg'
  | .mk _ _ pns, h => by simp only [CNode.Pr] at h ⊢; exact PNodes.Pr.wider hw h
theorem PNodes.Pr.wider {cfg cfg' : Config} (hw : Wider cfg cfg') : ∀ {c : PNodes}, c.Pr cfg → c.Pr cfg'
  | .nil, _ => by simp only [PNodes.Pr]
  | .cons _ _ cd rest, h => by
    simp only [PNodes.Pr] at h ⊢
    exact ⟨CDir.Pr.wider hw h.1, PNodes.Pr.wider hw h.2⟩
theorem CDir.Pr.wider {cfg cfg' : Config} (hw : Wider cfg cfg') : ∀ {ol or : Bool} {c : CDir}, c.Pr cfg ol or →
    c.Pr cfg' ol or
  | _, _, .leaf v b c, h => by
    simp only [CDir.Pr] at h ⊢
    obtain ⟨⟨d, h1⟩, h2⟩ := h
    exact ⟨h1.wider hw, CNode.Pr.wider hw h2⟩
  | _, _, .node v b c l r, h => by
    simp only [CDir.Pr] at h ⊢
    obtain ⟨⟨d, h1⟩, h2, h3, h4, h5, h6, h7⟩ := h
    exact ⟨h1.wider hw, CNode.Pr.wider hw h2, h3, h4, CDir.Pr.wider hw h5, CDir.Pr.wider hw h6, h7⟩
end

theorem snoc_pr {cfg : Config} {pns : PNodes} {v : Nat} {sc : Rat} {cd : CDir} (h : pns.Pr cfg) (hc : cd.Pr cfg true true) :
    (pns.snoc v sc cd).Pr cfg := by
  induction pns using PNodes.rec (motive_1 := fun _ => True) (motive_3 := fun _ => True) with
  | nil => simp only [PNodes.snoc, PNodes.Pr]; exact ⟨hc, trivial⟩
  | cons v' s' c' rest _ ih =>
    simp only [PNodes.snoc, PNodes.Pr] at h ⊢
    exact ⟨h.1, ih h.2⟩
  | _ => trivial

omit [Floats] in
theorem removeSub_subset {id : Nat} : ∀ {l l' : List Sub}, removeSub id l = some l' → ∀ s ∈ l', s ∈ l
  | [], _, h => by simp [removeSub] at h
  | x :: xs, l', h => by
    simp only [removeSub] at h
    split at h
    · cases h; exact fun s hs => List.mem_cons_of_mem _ hs
    · cases hx : removeSub id xs with
      | none => rw [hx] at h; cases h
      | some k =>
        rw [hx] at h
        cases h
        intro s hs
        rcases List.mem_cons.1 hs with rfl | hs
        · exact List.mem_cons_self
        · exact List.mem_cons_of_mem _ (removeSub_subset hx s hs)

omit [Floats] in
theorem moveLoop_subset {δ : Type} (dest : Sub → Except Fault (Option δ)) :
    ∀ (l kept : List Sub) (moved : List (δ × Sub)) (kept' : List Sub) (moved' : List (δ × Sub)),
      moveLoop dest kept l moved = .ok (kept', moved') →
      (∀ s ∈ kept', s ∈ kept ∨ s ∈ l) ∧ (∀ x ∈ moved', x ∈ moved ∨ (x.2 ∈ l ∧ dest x.2 = .ok (some x.1))) := by
  intro l
  induction l with
  | nil =>
    intro kept moved kept' moved' h
    simp only [moveLoop, Except.ok.injEq, Prod.mk.injEq] at h
    obtain ⟨rfl, rfl⟩ := h
    exact ⟨fun s hs => Or.inl hs, fun x hx => Or.inl hx⟩
  | cons s rest ih =>
    intro kept moved kept' moved' h
    simp only [moveLoop] at h
    split at h
    · cases h
    · obtain ⟨h1, h2⟩ := ih _ _ _ _ h
      constructor
      · intro t ht
        rcases h1 t ht with h3 | h3
        · rcases List.mem_append.1 h3 with h3 | h3
          · exact Or.inl h3
          · exact Or.inr (by simp only [List.mem_singleton] at h3; simp [h3])
        · exact Or.inr (List.mem_cons_of_mem _ h3)
      · intro x hx
        rcases h2 x hx with h3 | h3
        · exact Or.inl h3
        · exact Or.inr ⟨List.mem_cons_of_mem _ h3.1, h3.2⟩
    · rename_i d hd
      split at h
      · rename_i k hk
        obtain ⟨h1, h2⟩ := ih _ _ _ _ h
        constructor
        · intro t ht
          rcases h1 t ht with h3 | h3
          · rcases List.mem_append.1 h3 with h3 | h3
            · exact Or.inl (removeSub_subset hk t h3)
            · exact Or.inr (by simp only [List.mem_singleton] at h3; simp [h3])
          · exact Or.inr (List.mem_cons_of_mem _ h3)
        · intro x hx
          rcases h2 x hx with h3 | h3
          · rcases List.mem_append.1 h3 with h3 | h3
            · exact Or.inl h3
            · simp only [List.mem_singleton] at h3
              subst h3
              exact Or.inr ⟨List.mem_cons_self, hd⟩
          · exact Or.inr ⟨List.mem_cons_of_mem _ h3.1, h3.2⟩
      · obtain ⟨h1, h2⟩ := ih _ _ _ _ h
        constructor
        · intro t ht
          rcases h1 t ht with h3 | h3
          · exact Or.inl h3
          · exact Or.inr (List.mem_cons_of_mem _ h3)
        · intro x hx
          rcases h2 x hx with h3 | h3
          · rcases List.mem_append.1 h3 with h3 | h3
            · exact Or.inl h3
            · simp only [List.mem_singleton] at h3
              subst h3
              exact Or.inr ⟨List.mem_cons_self, hd⟩
          · exact Or.inr ⟨List.mem_cons_of_mem _ h3.1, h3.2⟩

/-! ### the variable chosen for a partition is one the tree may split on -/

/-- the state of the loop names a splittable domain -/
def Best.Good (doms : List Domain) (b : Best) : Prop :=
  ∀ v, b.var = some v → ∃ d, doms[v]? = some d ∧ splitable d.bound = .ok true

omit [Floats] in
theorem bestStep_good {R : Rounding} {used : List Nat} {subs : List Sub} {s : Sub} {d : Domain} {j : Nat} {b b' : Best}
    {doms : List Domain} (hj : doms[j]? = some d) (hb : b.Good doms) (h : bestStep R used subs s d j b = .ok b') :
    b'.Good doms := by
  unfold bestStep at h
  split at h
  · split at h
    · cases h
    · cases h; exact hb
    · rename_i hsp
      split at h
      · cases h; exact hb
      · split at h
        · cases h
        · split at h
          · cases h
            intro v hv
            simp only [Option.some.injEq] at hv
            subst hv
            exact ⟨d, hj, hsp⟩
          · cases h; exact hb
  · cases h; exact hb

omit [Floats] in
theorem bestOfSub_good {R : Rounding} {used : List Nat} {subs : List Sub} {s : Sub} {doms : List Domain} :
    ∀ {ds : List Domain} {j : Nat} {b b' : Best}, (∀ i, ds[i]? = doms[j + i]?) → b.Good doms →
      bestOfSub R used subs s ds j b = .ok b' → b'.Good doms := by
  intro ds
  induction ds with
  | nil => intro j b b' _ hb h; cases h; exact hb
  | cons d ds ih =>
    intro j b b' hd hb h
    simp only [bestOfSub] at h
    split at h
    · cases h
    · rename_i b1 h1
      have h0 := hd 0
      simp only [List.getElem?_cons_zero, Nat.add_zero] at h0
      refine ih (j := j + 1) ?_ (bestStep_good h0.symm hb h1) h
      intro i
      have := hd (i + 1)
      rw [List.getElem?_cons_succ] at this
      rw [this]; congr 1; omega

omit [Floats] in
theorem bestOfSubs_good {R : Rounding} {cfg : Config} {used : List Nat} {subs : List Sub} :
    ∀ {ss : List Sub} {b b' : Best}, b.Good cfg.domains → bestOfSubs R cfg used subs ss b = .ok b' → b'.Good cfg.domains := by
  intro ss
  induction ss with
  | nil => intro b b' hb h; cases h; exact hb
  | cons s ss ih =>
    intro b b' hb h
    simp only [bestOfSubs] at h
    split at h
    · cases h
    · rename_i b1 h1
      exact ih (bestOfSub_good (by intro i; rw [Nat.zero_add]) hb h1) h

omit [Floats] in
theorem nextHighest_splitable {R : Rounding} {cfg : Config} {used : List Nat} {subs : List Sub} {v : Nat}
    (h : nextHighest R cfg used subs = .ok (some v)) : ∃ d, cfg.domains[v]? = some d ∧ splitable d.bound = .ok true := by
  unfold nextHighest at h
  split at h
  · cases h
  · rename_i b hb
    split at h
    · split at h
      · cases h
      · rename_i w hw
        cases h
        exact bestOfSubs_good (b := { found := false, score := 0, var := none }) (by intro v hv; cases hv) hb _ hw
    · cases h

/-! ### restructuring -/

theorem restructure_pr (R : Rounding) (cfg : Config) (hcfg : DomsOK cfg) (fuel : Nat) :
    (∀ used subs max pns c, pns.Pr cfg → partition R cfg fuel used subs max pns = .ok c →
      c.Pr cfg ∧ ∀ s ∈ c.contents, s ∈ subs ∨ s ∈ pns.contents) ∧
    (∀ used ol or cd cd', cd.Pr cfg ol or → cluster R cfg fuel used cd = .ok cd' →
      cd'.Pr cfg ol or ∧ cd'.var = cd.var ∧ cd'.bound = cd.bound ∧ ∀ s ∈ cd'.contents, s ∈ cd.contents) := by
  induction fuel with
  | zero => constructor <;> intros <;> rename_i h <;> simp [partition, cluster] at h
  | succ fuel ih =>
    obtain ⟨ihp, ihc⟩ := ih
    have fin : ∀ {subs : List Sub} {pns : PNodes} {c : CNode}, pns.Pr cfg → finishPartition cfg subs pns = .ok c →
        c.Pr cfg ∧ ∀ s ∈ c.contents, s ∈ subs ∨ s ∈ pns.contents := by
      intro subs pns c hp h
      obtain ⟨m, rfl⟩ := finishPartition_ok h
      refine ⟨by simp only [CNode.Pr]; exact hp, fun s hs => ?_⟩
      simpa [CNode.contents] using hs
    constructor
    · intro used subs max pns c hp h
      simp only [partition] at h
      split at h
      · split at h
        · cases h
        · exact fin hp h
        · rename_i v hv
          split at h
          · exact fin hp h
          · split at h
            · cases h
            · rename_i d hd
              split at h
              · cases h
              · rename_i kept moved hm
                split at h
                · cases h
                · rename_i cdir hcl
                  obtain ⟨d', hd', hsp⟩ := nextHighest_splitable hv
                  have : d' = d := by
                    unfold getDomain at hd
                    rw [hd'] at hd; cases hd; rfl
                  subst this
                  have hda := hcfg v d' hd'
                  have hlim := splitable_limited hda.ok hsp
                  have hleaf : (CDir.leaf v d'.bound (.mk (moved.map (·.2)) cfg.lnodeMaxCap .nil)).Pr cfg true true := by
                    simp only [CDir.Pr, CNode.Pr, PNodes.Pr]
                    exact ⟨⟨d', BInv.root hda hlim⟩, trivial⟩
                  obtain ⟨c1, _, _, c4⟩ := ihc _ _ _ _ _ hleaf hcl
                  obtain ⟨p1, p2⟩ := ihp _ _ _ _ _ (snoc_pr hp c1) h
                  obtain ⟨m1, m2⟩ := moveLoop_subset _ _ _ _ _ _ hm
                  refine ⟨p1, fun s hs => ?_⟩
                  rcases p2 s hs with h5 | h5
                  · rcases m1 s h5 with h6 | h6
                    · cases h6
                    · exact Or.inl h6
                  · rw [snoc_contents] at h5
                    rcases List.mem_append.1 h5 with h6 | h6
                    · exact Or.inr h6
                    · have h7 := c4 s h6
                      simp only [CDir.contents, CNode.contents, PNodes.contents, List.append_nil, List.mem_map] at h7
                      obtain ⟨x, hx, rfl⟩ := h7
                      rcases m2 x hx with h8 | h8
                      · cases h8
                      · exact Or.inl h8.1
      · exact fin hp h
    · intro used ol or cd cd' hp h
      cases cd with
      | node v b c l r =>
        obtain ⟨subs, max, pns⟩ := c
        simp only [cluster] at h
        split at h
        · split at h
          · cases h
          · rename_i cn hcn
            cases h
            simp only [CDir.Pr, CNode.Pr] at hp
            obtain ⟨p1, p2, p3⟩ := hp
            obtain ⟨q1, q2⟩ := ihp _ _ _ _ _ p2 hcn
            refine ⟨by simp only [CDir.Pr]; exact ⟨p1, q1, p3⟩, rfl, rfl, fun s hs => ?_⟩
            simp only [CDir.contents, CNode.contents, List.mem_append] at hs ⊢
            rcases hs with (hs | hs) | hs
            · exact Or.inl (Or.inl (q2 s hs))
            · exact Or.inl (Or.inr hs)
            · exact Or.inr hs
        · cases h; exact ⟨hp, rfl, rfl, fun s hs => hs⟩
      | leaf v b c =>
        obtain ⟨subs, max, pns⟩ := c
        simp only [cluster] at h
        split at h
        · split at h
          · cases h
          · split at h
            · cases h
            · rename_i cn hcn
              cases h
              simp only [CDir.Pr, CNode.Pr] at hp
              obtain ⟨p1, p2⟩ := hp
              obtain ⟨q1, q2⟩ := ihp _ _ _ _ _ p2 hcn
              refine ⟨by simp only [CDir.Pr]; exact ⟨p1, q1⟩, rfl, rfl, fun s hs => ?_⟩
              simp only [CDir.contents, CNode.contents, List.mem_append] at hs ⊢
              exact q2 s hs
          · split at h
            · cases h
            · rename_i bl br hsplit
              split at h
              · cases h
              · rename_i kept moved hm
                split at h
                · cases h
                · rename_i cn hcn
                  split at h
                  · cases h
                  · rename_i l hl
                    split at h
                    · cases h
                    · rename_i r hr
                      cases h
                      simp only [CDir.Pr, CNode.Pr] at hp
                      obtain ⟨⟨d, hb⟩, p2⟩ := hp
                      obtain ⟨q1, q2⟩ := ihp _ _ _ _ _ p2 hcn
                      obtain ⟨bl1, br1⟩ := hb.split hsplit
                      have hleaf : (CDir.leaf v bl (.mk (movedTo true moved) cfg.lnodeMaxCap .nil)).Pr cfg ol false := by
                        simp only [CDir.Pr, CNode.Pr, PNodes.Pr]; exact ⟨⟨d, bl1⟩, trivial⟩
                      have hreaf : (CDir.leaf v br (.mk (movedTo false moved) cfg.lnodeMaxCap .nil)).Pr cfg false or := by
                        simp only [CDir.Pr, CNode.Pr, PNodes.Pr]; exact ⟨⟨d, br1⟩, trivial⟩
                      obtain ⟨l1, l2, l3, l4⟩ := ihc _ _ _ _ _ hleaf hl
                      obtain ⟨r1, r2, r3, r4⟩ := ihc _ _ _ _ _ hreaf hr
                      obtain ⟨m1, m2⟩ := moveLoop_subset _ _ _ _ _ _ hm
                      have mem : ∀ side s, s ∈ movedTo side moved → s ∈ subs ∧ clusterDest cfg v bl br s = .ok (some side) := by
                        intro side s hs
                        simp only [movedTo, List.mem_map, List.mem_filter, beq_iff_eq] at hs
                        obtain ⟨x, ⟨hx, rfl⟩, rfl⟩ := hs
                        rcases m2 x hx with h8 | h8
                        · cases h8
                        · exact h8
                      have dl : ∀ s, clusterDest cfg v bl br s = .ok (some true) → subIsEnclosed cfg s v bl = .ok true := by
                        intro s hs
                        unfold clusterDest at hs
                        split at hs
                        · cases hs
                        · assumption
                        · split at hs <;> simp at hs
                      have dr : ∀ s, clusterDest cfg v bl br s = .ok (some false) → subIsEnclosed cfg s v br = .ok true := by
                        intro s hs
                        unfold clusterDest at hs
                        split at hs
                        · cases hs
                        · simp at hs
                        · split at hs
                          · cases hs
                          · assumption
                          · simp at hs
                      refine ⟨?_, rfl, rfl, ?_⟩
                      · simp only [CDir.Pr]
                        refine ⟨⟨d, hb⟩, q1, l2, r2, l1, r1, ?_, ?_⟩
                        · intro s hs
                          have h7 := l4 s hs
                          simp only [CDir.contents, CNode.contents, PNodes.contents, List.append_nil] at h7
                          rw [l2, l3]
                          exact admits_of_enclosed bl1 (dl s (mem _ _ h7).2)
                        · intro s hs
                          have h7 := r4 s hs
                          simp only [CDir.contents, CNode.contents, PNodes.contents, List.append_nil] at h7
                          rw [r2, r3]
                          exact admits_of_enclosed br1 (dr s (mem _ _ h7).2)
                      · intro s hs
                        simp only [CDir.contents, CNode.contents, List.mem_append] at hs ⊢
                        rcases hs with (hs | hs) | hs
                        · rcases q2 s hs with h9 | h9
                          · rcases m1 s h9 with h10 | h10
                            · cases h10
                            · exact Or.inl h10
                          · exact Or.inr h9
                        · have h7 := l4 s hs
                          simp only [CDir.contents, CNode.contents, PNodes.contents, List.append_nil] at h7
                          exact Or.inl (mem _ _ h7).1
                        · have h7 := r4 s hs
                          simp only [CDir.contents, CNode.contents, PNodes.contents, List.append_nil] at h7
                          exact Or.inl (mem _ _ h7).1
        · cases h; exact ⟨hp, rfl, rfl, fun s hs => hs⟩

/-! ### insertion -/

mutual
theorem PNodes.insert_pr {R : Rounding} {cfg : Config} (hcfg : DomsOK cfg) {fuel : Nat} {used : List Nat} {v : Nat} {s : Sub} :
    ∀ {pns pns' : PNodes}, pns.Pr cfg → pns.insert R cfg fuel used v s = .ok pns' →
      pns'.Pr cfg ∧ ∀ t ∈ pns'.contents, t = s ∨ t ∈ pns.contents
  | .nil, pns', _, h => by simp [PNodes.insert] at h
  | .cons v' sc cd rest, pns', hp, h => by
    simp only [PNodes.insert] at h
    simp only [PNodes.Pr] at hp
    split at h
    · split at h
      · cases h
      · rename_i cd' hcd
        split at h
        · cases h
        · cases h
          obtain ⟨h1, _, _, h4⟩ := CDir.insert_pr hcfg hp.1 hcd
          refine ⟨by simp only [PNodes.Pr]; exact ⟨h1, hp.2⟩, fun t ht => ?_⟩
          simp only [PNodes.contents, List.mem_append] at ht ⊢
          rcases ht with ht | ht
          · rcases h4 t ht with h5 | h5
            · exact Or.inl h5
            · exact Or.inr (Or.inl h5)
          · exact Or.inr (Or.inr ht)
    · split at h
      · cases h
      · rename_i rest' hr
        cases h
        obtain ⟨h1, h4⟩ := PNodes.insert_pr hcfg hp.2 hr
        refine ⟨by simp only [PNodes.Pr]; exact ⟨hp.1, h1⟩, fun t ht => ?_⟩
        simp only [PNodes.contents, List.mem_append] at ht ⊢
        rcases ht with ht | ht
        · exact Or.inr (Or.inl ht)
        · rcases h4 t ht with h5 | h5
          · exact Or.inl h5
          · exact Or.inr (Or.inr h5)

theorem CDir.insert_pr {R : Rounding} {cfg : Config} (hcfg : DomsOK cfg) {fuel : Nat} {used : List Nat} {s : Sub} :
    ∀ {ol or : Bool} {cd cd' : CDir}, cd.Pr cfg ol or → cd.insert R cfg fuel used s = .ok cd' →
      cd'.Pr cfg ol or ∧ cd'.var = cd.var ∧ cd'.bound = cd.bound ∧ ∀ t ∈ cd'.contents, t = s ∨ t ∈ cd.contents
  | ol, or, .leaf v b (.mk subs max pns), cd', hp, h => by
    simp only [CDir.insert] at h
    split at h
    · have hp' : (CDir.leaf v b (.mk (subs ++ [s]) max pns)).Pr cfg ol or := by
        simpa only [CDir.Pr, CNode.Pr] using hp
      obtain ⟨h1, h2, h3, h4⟩ := (restructure_pr R cfg hcfg fuel).2 _ _ _ _ _ hp' h
      refine ⟨h1, h2, h3, fun t ht => ?_⟩
      have := h4 t ht
      simp only [CDir.contents, CNode.contents, List.mem_append, List.mem_singleton] at this ⊢
      rcases this with (h5 | h5) | h5
      · exact Or.inr (Or.inl h5)
      · exact Or.inl h5
      · exact Or.inr (Or.inr h5)
    · split at h
      · cases h
      · rename_i pns' hpn
        cases h
        simp only [CDir.Pr, CNode.Pr] at hp
        obtain ⟨h1, h4⟩ := PNodes.insert_pr hcfg hp.2 hpn
        refine ⟨by simp only [CDir.Pr, CNode.Pr]; exact ⟨hp.1, h1⟩, rfl, rfl, fun t ht => ?_⟩
        simp only [CDir.contents, CNode.contents, List.mem_append] at ht ⊢
        rcases ht with ht | ht
        · exact Or.inr (Or.inl ht)
        · rcases h4 t ht with h5 | h5
          · exact Or.inl h5
          · exact Or.inr (Or.inr h5)
  | ol, or, .node v b (.mk subs max pns) l r, cd', hp, h => by
    have hp0 := hp
    simp only [CDir.Pr, CNode.Pr] at hp
    obtain ⟨hb, hc, hl1, hr1, hl2, hr2, hl3, hr3⟩ := hp
    simp only [CDir.insert] at h
    split at h
    · cases h
    · rename_i henc
      split at h
      · cases h
      · rename_i l' hl
        cases h
        obtain ⟨h1, h2, h3, h4⟩ := CDir.insert_pr hcfg hl2 hl
        refine ⟨?_, rfl, rfl, fun t ht => ?_⟩
        · simp only [CDir.Pr, CNode.Pr]
          refine ⟨hb, hc, h2.trans hl1, hr1, h1, hr2, fun t ht => ?_, hr3⟩
          rw [h2, h3]
          rcases h4 t ht with rfl | h5
          · obtain ⟨d, hd⟩ := hl2.inv
            exact admits_of_enclosed hd henc
          · exact hl3 t h5
        · simp only [CDir.contents, List.mem_append] at ht ⊢
          rcases ht with (ht | ht) | ht
          · exact Or.inr (Or.inl (Or.inl ht))
          · rcases h4 t ht with h5 | h5
            · exact Or.inl h5
            · exact Or.inr (Or.inl (Or.inr h5))
          · exact Or.inr (Or.inr ht)
    · split at h
      · cases h
      · rename_i henc
        split at h
        · cases h
        · rename_i r' hr
          cases h
          obtain ⟨h1, h2, h3, h4⟩ := CDir.insert_pr hcfg hr2 hr
          refine ⟨?_, rfl, rfl, fun t ht => ?_⟩
          · simp only [CDir.Pr, CNode.Pr]
            refine ⟨hb, hc, hl1, h2.trans hr1, hl2, h1, hl3, fun t ht => ?_⟩
            rw [h2, h3]
            rcases h4 t ht with rfl | h5
            · obtain ⟨d, hd⟩ := hr2.inv
              exact admits_of_enclosed hd henc
            · exact hr3 t h5
          · simp only [CDir.contents, List.mem_append] at ht ⊢
            rcases ht with (ht | ht) | ht
            · exact Or.inr (Or.inl (Or.inl ht))
            · exact Or.inr (Or.inl (Or.inr ht))
            · rcases h4 t ht with h5 | h5
              · exact Or.inl h5
              · exact Or.inr (Or.inr h5)
      · split at h
        · have hp' : (CDir.node v b (.mk (subs ++ [s]) max pns) l r).Pr cfg ol or := by
            simpa only [CDir.Pr, CNode.Pr] using hp0
          obtain ⟨h1, h2, h3, h4⟩ := (restructure_pr R cfg hcfg fuel).2 _ _ _ _ _ hp' h
          refine ⟨h1, h2, h3, fun t ht => ?_⟩
          have := h4 t ht
          simp only [CDir.contents, CNode.contents, List.mem_append, List.mem_singleton] at this ⊢
          rcases this with ((( h5 | h5) | h5) | h5) | h5
          · exact Or.inr (Or.inl (Or.inl (Or.inl h5)))
          · exact Or.inl h5
          · exact Or.inr (Or.inl (Or.inl (Or.inr h5)))
          · exact Or.inr (Or.inl (Or.inr h5))
          · exact Or.inr (Or.inr h5)
        · split at h
          · cases h
          · rename_i pns' hpn
            cases h
            obtain ⟨h1, h4⟩ := PNodes.insert_pr hcfg hc hpn
            refine ⟨?_, rfl, rfl, fun t ht => ?_⟩
            · simp only [CDir.Pr, CNode.Pr]
              exact ⟨hb, h1, hl1, hr1, hl2, hr2, hl3, hr3⟩
            · simp only [CDir.contents, CNode.contents, List.mem_append] at ht ⊢
              rcases ht with ((ht | ht) | ht) | ht
              · exact Or.inr (Or.inl (Or.inl (Or.inl ht)))
              · rcases h4 t ht with h5 | h5
                · exact Or.inl h5
                · exact Or.inr (Or.inl (Or.inl (Or.inr h5)))
              · exact Or.inr (Or.inl (Or.inr ht))
              · exact Or.inr (Or.inr ht)
end

theorem CNode.insert_pr {R : Rounding} {cfg : Config} (hcfg : DomsOK cfg) {s : Sub} {c c' : CNode} (hp : c.Pr cfg)
    (h : c.insert R cfg s = .ok c') : c'.Pr cfg := by
  obtain ⟨subs, max, pns⟩ := c
  simp only [CNode.insert] at h
  simp only [CNode.Pr] at hp
  split at h
  · exact ((restructure_pr R cfg hcfg _).1 _ _ _ _ _ hp h).1
  · split at h
    · cases h
    · rename_i pns' hpn
      cases h
      simp only [CNode.Pr]
      exact (PNodes.insert_pr hcfg hp hpn).1

end BeTree
