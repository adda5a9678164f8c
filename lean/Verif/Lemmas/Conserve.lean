import Verif.Spec.Contents
import Mathlib.Data.List.Perm.Basic
/-
Restructuring neither loses nor duplicates subscriptions, given distinct ids.
-/
namespace BeTree

theorem snoc_contents (pns : PNodes) (v : Nat) (sc : Rat) (cd : CDir) :
    (pns.snoc v sc cd).contents = pns.contents ++ cd.contents := by
  induction pns using PNodes.rec (motive_1 := fun _ => True) (motive_3 := fun _ => True) with
  | nil => simp [PNodes.snoc, PNodes.contents]
  | cons v' s' c' rest _ ih => simp [PNodes.snoc, PNodes.contents, ih]
  | _ => trivial

theorem removeSub_none {id : Nat} {l : List Sub} (h : id ∉ l.map Sub.id) : removeSub id l = none := by
  induction l with
  | nil => rfl
  | cons s ss ih =>
    simp only [List.map_cons, List.mem_cons, not_or] at h
    have h1 : ¬ s.id = id := fun h' => h.1 h'.symm
    simp [removeSub, h1, ih h.2]

/-- What the moving loop does when ids are distinct: it separates the entries that move from those that stay. -/
theorem moveLoop_spec {δ : Type} (dest : Sub → Except Fault (Option δ)) :
    ∀ (subs kept : List Sub) (moved : List (δ × Sub)) (kept' : List Sub) (moved' : List (δ × Sub)),
      ((kept ++ subs).map Sub.id).Nodup → moveLoop dest kept subs moved = .ok (kept', moved') →
      ∃ k m, kept' = kept ++ k ∧ moved' = moved ++ m ∧ (k ++ m.map (·.2)).Perm subs ∧
        (∀ x ∈ k, dest x = .ok none) ∧ (∀ x ∈ m, dest x.2 = .ok (some x.1)) ∧ k.Sublist subs ∧
        (m.map (·.2)).Sublist subs := by
  intro subs
  induction subs with
  | nil =>
    intro kept moved kept' moved' _ h
    simp only [moveLoop, Except.ok.injEq, Prod.mk.injEq] at h
    exact ⟨[], [], by simp [h.1], by simp [h.2], by simp⟩
  | cons s ss ih =>
    intro kept moved kept' moved' hnd h
    unfold moveLoop at h
    split at h
    · cases h
    · rename_i hd
      obtain ⟨k, m, h1, h2, h3, h4, h5, h6, h7⟩ := ih (kept ++ [s]) moved kept' moved' (by simpa using hnd) h
      refine ⟨s :: k, m, by simp [h1], h2, by simpa using h3, ?_, h5, h6.cons_cons s, h7.trans (List.sublist_cons_self ..)⟩
      intro x hx
      rcases List.mem_cons.1 hx with rfl | hx
      · exact hd
      · exact h4 x hx
    · rename_i d hd
      have hnot : s.id ∉ kept.map Sub.id := by
        simp only [List.map_append, List.map_cons] at hnd
        intro hmem
        exact (List.nodup_append.1 hnd).2.2 _ hmem s.id (by simp) rfl
      rw [removeSub_none hnot] at h
      have hnd' : ((kept ++ ss).map Sub.id).Nodup := by
        refine hnd.sublist (List.Sublist.map _ ?_)
        exact List.Sublist.append_left (List.sublist_cons_self ..) _
      obtain ⟨k, m, h1, h2, h3, h4, h5, h6, h7⟩ := ih kept (moved ++ [(d, s)]) kept' moved' hnd' h
      refine ⟨k, (d, s) :: m, h1, by simp [h2], ?_, h4, ?_, h6.trans (List.sublist_cons_self ..), by simpa using h7.cons_cons s⟩
      · simp only [List.map_cons]
        exact List.perm_middle.trans (h3.cons s)
      · intro x hx
        rcases List.mem_cons.1 hx with rfl | hx
        · exact hd
        · exact h5 x hx

theorem movedTo_perm (m : List (Bool × Sub)) : (movedTo true m ++ movedTo false m).Perm (m.map (·.2)) := by
  induction m with
  | nil => simp [movedTo]
  | cons x xs ih =>
    obtain ⟨b, s⟩ := x
    cases b
    · have : movedTo true ((false, s) :: xs) = movedTo true xs ∧ movedTo false ((false, s) :: xs) = s :: movedTo false xs := by
        simp [movedTo]
      rw [this.1, this.2]
      simpa using List.perm_middle.trans (ih.cons s)
    · have : movedTo true ((true, s) :: xs) = s :: movedTo true xs ∧ movedTo false ((true, s) :: xs) = movedTo false xs := by
        simp [movedTo]
      rw [this.1, this.2]
      simpa using ih.cons s

theorem finishPartition_ok {cfg : Config} {subs : List Sub} {pns : PNodes} {c : CNode}
    (h : finishPartition cfg subs pns = .ok c) : ∃ max, c = .mk subs max pns := by
  unfold finishPartition at h
  split at h
  · cases h
  · cases h; exact ⟨_, rfl⟩

theorem nodup_ids_of_perm {a b : List Sub} (h : a.Perm b) (hb : (b.map Sub.id).Nodup) : (a.map Sub.id).Nodup :=
  ((h.map _).nodup_iff).2 hb

/-- the two restructuring functions keep the contents -/
theorem restructure_contents (R : Rounding) (cfg : Config) (fuel : Nat) :
    (∀ used subs max pns c, (subs.map Sub.id).Nodup → partition R cfg fuel used subs max pns = .ok c →
      c.contents.Perm (subs ++ pns.contents)) ∧
    (∀ used cd cd', (cd.cnode.subs.map Sub.id).Nodup → cluster R cfg fuel used cd = .ok cd' →
      cd'.contents.Perm cd.contents) := by
  induction fuel with
  | zero =>
    constructor
    · intro used subs max pns c _ h; simp [partition] at h
    · intro used cd cd' _ h; simp [cluster] at h
  | succ fuel ih =>
    obtain ⟨ihp, ihc⟩ := ih
    constructor
    · intro used subs max pns c hnd h
      have fin : finishPartition cfg subs pns = .ok c → c.contents.Perm (subs ++ pns.contents) := by
        intro h
        obtain ⟨m, rfl⟩ := finishPartition_ok h
        simp [CNode.contents]
      unfold partition at h
      split at h
      · split at h
        · cases h
        · exact fin h
        · rename_i v _
          split at h
          · exact fin h
          · split at h
            · cases h
            · rename_i d _
              split at h
              · cases h
              · rename_i kept moved hmv
                obtain ⟨k, m, hk, hm, hperm, _, _, hsub, hsubm⟩ := moveLoop_spec _ subs [] [] kept moved (by simpa using hnd) hmv
                simp only [List.nil_append] at hk hm
                subst hk; subst hm
                split at h
                · cases h
                · rename_i cdir hcl
                  have h1 := ihc _ _ _ (by
                    simp only [CDir.cnode, CNode.subs]
                    exact hnd.sublist (hsubm.map _)) hcl
                  have h2 := ihp _ _ _ _ _ (hnd.sublist (hsub.map _)) h
                  refine h2.trans ?_
                  rw [snoc_contents]
                  have h3 : cdir.contents.Perm (moved.map (·.2)) := by
                    refine h1.trans ?_
                    simp [CDir.contents, CNode.contents, PNodes.contents]
                  calc kept ++ (pns.contents ++ cdir.contents)
                      _ |>.Perm (kept ++ (pns.contents ++ moved.map (·.2))) := (h3.append_left _).append_left _
                      _ |>.Perm (kept ++ (moved.map (·.2) ++ pns.contents)) := List.perm_append_comm.append_left _
                      _ = (kept ++ moved.map (·.2)) ++ pns.contents := by simp
                      _ |>.Perm (subs ++ pns.contents) := hperm.append_right _
      · exact fin h
    · intro used cd cd' hnd h
      cases cd with
      | node v b cn l r =>
        obtain ⟨subs, max, pns⟩ := cn
        simp only [CDir.cnode, CNode.subs] at hnd
        unfold cluster at h
        split at h
        · split at h
          · cases h
          · rename_i c' hpart
            cases h
            have := ihp _ _ _ _ _ hnd hpart
            simp only [CDir.contents, CNode.contents]
            exact (this.append_right _).append_right _
        · cases h; exact List.Perm.refl _
      | leaf v b cn =>
        obtain ⟨subs, max, pns⟩ := cn
        simp only [CDir.cnode, CNode.subs] at hnd
        unfold cluster at h
        split at h
        · split at h
          · cases h
          · split at h
            · cases h
            · rename_i c' hpart
              cases h
              simpa only [CDir.contents, CNode.contents] using ihp _ _ _ _ _ hnd hpart
          · split at h
            · cases h
            · rename_i bl br _
              split at h
              · cases h
              · rename_i kept moved hmv
                obtain ⟨k, m, hk, hm, hperm, _, _, hsub, hsubm⟩ := moveLoop_spec _ subs [] [] kept moved (by simpa using hnd) hmv
                simp only [List.nil_append] at hk hm
                subst hk; subst hm
                have hmt := movedTo_perm moved
                have hmn : ((movedTo true moved ++ movedTo false moved).map Sub.id).Nodup :=
                  nodup_ids_of_perm hmt (hnd.sublist (hsubm.map _))
                rw [List.map_append] at hmn
                split at h
                · cases h
                · rename_i c' hpart
                  split at h
                  · cases h
                  · rename_i l hl
                    split at h
                    · cases h
                    · rename_i r hr
                      cases h
                      have p1 := ihp _ _ _ _ _ (hnd.sublist (hsub.map _)) hpart
                      have p2 := ihc _ _ _ (by simpa only [CDir.cnode, CNode.subs] using (List.nodup_append.1 hmn).1) hl
                      have p3 := ihc _ _ _ (by simpa only [CDir.cnode, CNode.subs] using (List.nodup_append.1 hmn).2.1) hr
                      simp only [CDir.contents, CNode.contents, PNodes.contents, List.append_nil] at p2 p3 ⊢
                      calc c'.contents ++ l.contents ++ r.contents
                          _ |>.Perm ((kept ++ pns.contents) ++ movedTo true moved ++ movedTo false moved) :=
                              (p1.append p2).append p3
                          _ = (kept ++ pns.contents) ++ (movedTo true moved ++ movedTo false moved) := by simp
                          _ |>.Perm ((kept ++ pns.contents) ++ moved.map (·.2)) := hmt.append_left _
                          _ = kept ++ (pns.contents ++ moved.map (·.2)) := by simp
                          _ |>.Perm (kept ++ (moved.map (·.2) ++ pns.contents)) := List.perm_append_comm.append_left _
                          _ = (kept ++ moved.map (·.2)) ++ pns.contents := by simp
                          _ |>.Perm (subs ++ pns.contents) := hperm.append_right _
        · cases h; exact List.Perm.refl _

mutual
theorem PNodes.insert_contents {R : Rounding} {cfg : Config} {fuel : Nat} {used : List Nat} {v : Nat} {s : Sub} :
    ∀ {pns pns' : PNodes}, ((s :: pns.contents).map Sub.id).Nodup → pns.insert R cfg fuel used v s = .ok pns' →
      pns'.contents.Perm (s :: pns.contents)
  | .nil, pns', _, h => by simp [PNodes.insert] at h
  | .cons v' sc cd rest, pns', hnd, h => by
    simp only [PNodes.contents, List.map_cons, List.map_append] at hnd
    rw [List.nodup_cons, List.nodup_append] at hnd
    obtain ⟨hs, hcd, hrest, _⟩ := hnd
    simp only [List.mem_append, not_or] at hs
    unfold PNodes.insert at h
    split at h
    · split at h
      · cases h
      · rename_i cd' hcd'
        split at h
        · cases h
        · cases h
          have := CDir.insert_contents (List.nodup_cons.2 ⟨hs.1, hcd⟩) hcd'
          simp only [PNodes.contents]
          exact this.append_right _
    · split at h
      · cases h
      · rename_i rest' hr
        cases h
        have := PNodes.insert_contents (List.nodup_cons.2 ⟨hs.2, hrest⟩) hr
        simp only [PNodes.contents]
        exact (this.append_left _).trans List.perm_middle

theorem CDir.insert_contents {R : Rounding} {cfg : Config} {fuel : Nat} {used : List Nat} {s : Sub} :
    ∀ {cd cd' : CDir}, ((s :: cd.contents).map Sub.id).Nodup → cd.insert R cfg fuel used s = .ok cd' →
      cd'.contents.Perm (s :: cd.contents)
  | .leaf v b (.mk subs max pns), cd', hnd, h => by
    simp only [CDir.contents, CNode.contents, List.map_cons, List.map_append] at hnd
    rw [List.nodup_cons, List.nodup_append] at hnd
    obtain ⟨hs, hsubs, hpns, _⟩ := hnd
    simp only [List.mem_append, not_or] at hs
    unfold CDir.insert at h
    split at h
    · have := (restructure_contents R cfg fuel).2 _ _ _ (by
        simp only [CDir.cnode, CNode.subs, List.map_append, List.map_cons, List.map_nil]
        rw [List.nodup_append]
        refine ⟨hsubs, by simp, ?_⟩
        intro a ha b hb
        simp only [List.mem_singleton] at hb
        subst hb; rintro rfl; exact hs.1 ha) h
      refine this.trans ?_
      simp only [CDir.contents, CNode.contents, List.append_assoc, List.cons_append, List.nil_append]
      exact List.perm_middle
    · split at h
      · cases h
      · rename_i pns' hp
        cases h
        have := PNodes.insert_contents (List.nodup_cons.2 ⟨hs.2, hpns⟩) hp
        simp only [CDir.contents, CNode.contents]
        exact (this.append_left _).trans List.perm_middle
  | .node v b (.mk subs max pns) l r, cd', hnd, h => by
    simp only [CDir.contents, CNode.contents, List.map_cons, List.map_append, List.append_assoc] at hnd
    rw [List.nodup_cons, List.nodup_append, List.nodup_append, List.nodup_append] at hnd
    obtain ⟨hs, hsubs, ⟨hpns, ⟨hl, hr, _⟩, _⟩, _⟩ := hnd
    simp only [List.mem_append, not_or] at hs
    obtain ⟨hs1, hs2, hs3, hs4⟩ := hs
    unfold CDir.insert at h
    split at h
    · cases h
    · split at h
      · cases h
      · rename_i l' hl'
        cases h
        have := CDir.insert_contents (List.nodup_cons.2 ⟨hs3, hl⟩) hl'
        simp only [CDir.contents, CNode.contents]
        refine ((this.append_left _).append_right _).trans ?_
        simp only [List.append_assoc, List.cons_append]
        exact (List.perm_middle.append_left _).trans List.perm_middle
    · split at h
      · cases h
      · split at h
        · cases h
        · rename_i r' hr'
          cases h
          have := CDir.insert_contents (List.nodup_cons.2 ⟨hs4, hr⟩) hr'
          simp only [CDir.contents, CNode.contents]
          exact (this.append_left _).trans List.perm_middle
      · split at h
        · have := (restructure_contents R cfg fuel).2 _ _ _ (by
            simp only [CDir.cnode, CNode.subs, List.map_append, List.map_cons, List.map_nil]
            rw [List.nodup_append]
            refine ⟨hsubs, by simp, ?_⟩
            intro a ha b hb
            simp only [List.mem_singleton] at hb
            subst hb; rintro rfl; exact hs1 ha) h
          refine this.trans ?_
          simp only [CDir.contents, CNode.contents, List.append_assoc, List.cons_append, List.nil_append]
          exact List.perm_middle
        · split at h
          · cases h
          · rename_i pns' hp
            cases h
            have := PNodes.insert_contents (List.nodup_cons.2 ⟨hs2, hpns⟩) hp
            simp only [CDir.contents, CNode.contents, List.append_assoc]
            refine ((this.append_right _).append_left _).trans ?_
            exact List.perm_middle
end

/-- inserting adds the subscription to the contents and changes nothing else -/
theorem CNode.insert_contents {R : Rounding} {cfg : Config} {s : Sub} {c c' : CNode}
    (hnd : ((s :: c.contents).map Sub.id).Nodup) (h : c.insert R cfg s = .ok c') :
    c'.contents.Perm (s :: c.contents) := by
  obtain ⟨subs, max, pns⟩ := c
  simp only [CNode.contents, List.map_cons, List.map_append] at hnd
  rw [List.nodup_cons, List.nodup_append] at hnd
  obtain ⟨hs, hsubs, hpns, _⟩ := hnd
  simp only [List.mem_append, not_or] at hs
  simp only [CNode.insert] at h
  split at h
  · have := (restructure_contents R cfg _).1 _ _ _ _ _ (by
      simp only [List.map_append, List.map_cons, List.map_nil]
      rw [List.nodup_append]
      refine ⟨hsubs, by simp, ?_⟩
      intro a ha b hb
      simp only [List.mem_singleton] at hb
      subst hb; rintro rfl; exact hs.1 ha) h
    refine this.trans ?_
    simp only [CNode.contents, List.append_assoc, List.cons_append, List.nil_append]
    exact List.perm_middle
  · split at h
    · cases h
    · rename_i pns' hp
      cases h
      have := PNodes.insert_contents (List.nodup_cons.2 ⟨hs.2, hpns⟩) hp
      simp only [CNode.contents]
      exact (this.append_left _).trans List.perm_middle

end BeTree
