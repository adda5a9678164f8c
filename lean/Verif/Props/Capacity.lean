import Verif.Spec.Capacity
import Verif.Props.Intern
import Verif.Props.Conserve
/-
C24: leaf capacity.
-/
namespace BeTree
open Spec

theorem clusterCapacity_ok {cfg : Config} {n m : Nat} (h : clusterCapacity cfg n = .ok m) :
    LeafOK cfg.lnodeMaxCap (n, m) := by
  unfold clusterCapacity at h
  split at h
  · cases h
  · rename_i hc
    cases h
    have hpos : 0 < cfg.lnodeMaxCap := Nat.pos_of_ne_zero hc
    generalize cfg.lnodeMaxCap = c at *
    have hle : n ≤ (n + c - 1) / c * c := by
      have := Nat.div_add_mod (n + c - 1) c
      have := Nat.mod_lt (n + c - 1) hpos
      rw [Nat.mul_comm] at *
      have := Nat.mul_comm ((n + c - 1) / c) c
      omega
    refine ⟨Nat.le_trans hle (Nat.le_max_right _ _), ?_⟩
    by_cases hk : 0 < (n + c - 1) / c
    · refine ⟨_, hk, ?_⟩
      exact Nat.max_eq_right (Nat.le_mul_of_pos_left _ hk)
    · have : (n + c - 1) / c = 0 := Nat.eq_zero_of_not_pos hk
      exact ⟨1, by decide, by simp [this]⟩

theorem finishPartition_leaves {cfg : Config} {subs : List Sub} {pns : PNodes} {c : CNode}
    (hp : ∀ x ∈ pns.leaves, LeafOK cfg.lnodeMaxCap x) (h : finishPartition cfg subs pns = .ok c) :
    ∀ x ∈ c.leaves, LeafOK cfg.lnodeMaxCap x := by
  unfold finishPartition at h
  split at h
  · cases h
  · rename_i m hm
    cases h
    intro x hx
    rcases List.mem_cons.1 (by simpa only [CNode.leaves] using hx) with rfl | hx
    · exact clusterCapacity_ok hm
    · exact hp x hx

theorem PNodes.leaves_snoc (v : Nat) (s : Rat) (c : CDir) : ∀ p : PNodes, (p.snoc v s c).leaves = p.leaves ++ c.leaves
  | .nil => by simp [PNodes.snoc, PNodes.leaves]
  | .cons v' s' c' rest => by
    simp [PNodes.snoc, PNodes.leaves, PNodes.leaves_snoc v s c rest]

/-- partitioning repairs the leaf list it is given; clustering does too -/
theorem restructure_leaves (R : Rounding) (cfg : Config) (hc : 0 < cfg.lnodeMaxCap) (fuel : Nat) :
    (∀ used subs max pns c, (∀ x ∈ PNodes.leaves pns, LeafOK cfg.lnodeMaxCap x) →
      partition R cfg fuel used subs max pns = .ok c → ∀ x ∈ c.leaves, LeafOK cfg.lnodeMaxCap x) ∧
    (∀ used cd cd', (∀ subs max pns, cd.cnode = .mk subs max pns →
        (∀ x ∈ PNodes.leaves pns, LeafOK cfg.lnodeMaxCap x) ∧ ∃ k, 0 < k ∧ max = k * cfg.lnodeMaxCap) →
      (∀ v b c l r, cd = .node v b c l r → ∀ x ∈ l.leaves ++ r.leaves, LeafOK cfg.lnodeMaxCap x) →
      cluster R cfg fuel used cd = .ok cd' → ∀ x ∈ cd'.leaves, LeafOK cfg.lnodeMaxCap x) := by
  induction fuel with
  | zero =>
    refine ⟨?_, ?_⟩
    · intro used subs max pns c _ h; unfold partition at h; cases h
    · intro used cd cd' _ _ h; unfold cluster at h; cases h
  | succ fuel ih =>
    obtain ⟨ihp, ihc⟩ := ih
    have fresh : ∀ (v : Nat) (b : Bound) (ss : List Sub) (used : List Nat) (cd' : CDir),
        cluster R cfg fuel used (.leaf v b (.mk ss cfg.lnodeMaxCap .nil)) = .ok cd' →
        ∀ x ∈ cd'.leaves, LeafOK cfg.lnodeMaxCap x := by
      intro v b ss used cd' h
      refine ihc used _ cd' ?_ ?_ h
      · intro subs max pns he
        simp only [CDir.cnode] at he
        cases he
        exact ⟨by simp [PNodes.leaves], 1, by decide, by simp⟩
      · intro v b c l r he; cases he
    refine ⟨?_, ?_⟩
    · intro used subs max pns c hp h
      unfold partition at h
      split at h
      · split at h
        · cases h
        · exact finishPartition_leaves hp h
        · split at h
          · exact finishPartition_leaves hp h
          · split at h
            · cases h
            · split at h
              · cases h
              · split at h
                · cases h
                · rename_i cdir hcl
                  refine ihp _ _ _ _ _ ?_ h
                  intro x hx
                  rw [PNodes.leaves_snoc] at hx
                  rcases List.mem_append.1 hx with hx | hx
                  · exact hp x hx
                  · exact fresh _ _ _ _ _ hcl x hx
      · exact finishPartition_leaves hp h
    · intro used cd cd' hcn hch h
      cases cd with
      | node v b cn l r =>
        obtain ⟨subs, max, pns⟩ := cn
        obtain ⟨hp, hk⟩ := hcn subs max pns rfl
        have hlr := hch _ _ _ _ _ rfl
        unfold cluster at h
        split at h
        · split at h
          · cases h
          · rename_i c' hpart
            cases h
            intro x hx
            simp only [CDir.leaves, List.append_assoc] at hx
            rcases List.mem_append.1 hx with hx | hx
            · exact ihp _ _ _ _ _ hp hpart x hx
            · exact hlr x hx
        · rename_i hle
          cases h
          intro x hx
          simp only [CDir.leaves, CNode.leaves, List.append_assoc, List.cons_append] at hx
          rcases List.mem_cons.1 hx with rfl | hx
          · exact ⟨by simpa using hle, hk⟩
          · rcases List.mem_append.1 hx with hx | hx
            · exact hp x hx
            · exact hlr x hx
      | leaf v b cn =>
        obtain ⟨subs, max, pns⟩ := cn
        obtain ⟨hp, hk⟩ := hcn subs max pns rfl
        unfold cluster at h
        split at h
        · split at h
          · cases h
          · split at h
            · cases h
            · rename_i c' hpart
              cases h
              simpa only [CDir.leaves] using ihp _ _ _ _ _ hp hpart
          · split at h
            · cases h
            · split at h
              · cases h
              · split at h
                · cases h
                · rename_i c' hpart
                  split at h
                  · cases h
                  · rename_i l hl
                    split at h
                    · cases h
                    · rename_i r hr
                      cases h
                      intro x hx
                      simp only [CDir.leaves] at hx
                      rcases List.mem_append.1 hx with hx | hx
                      · rcases List.mem_append.1 hx with hx | hx
                        · exact ihp _ _ _ _ _ hp hpart x hx
                        · exact fresh _ _ _ _ _ hl x hx
                      · exact fresh _ _ _ _ _ hr x hx
        · rename_i hle
          cases h
          intro x hx
          simp only [CDir.leaves, CNode.leaves] at hx
          rcases List.mem_cons.1 hx with rfl | hx
          · exact ⟨by simpa using hle, hk⟩
          · exact hp x hx

mutual
theorem PNodes.insert_leaves {R : Rounding} {cfg : Config} (hc : 0 < cfg.lnodeMaxCap) {fuel : Nat} {used : List Nat}
    {v : Nat} {s : Sub} :
    ∀ {pns pns' : PNodes}, (∀ x ∈ pns.leaves, LeafOK cfg.lnodeMaxCap x) → pns.insert R cfg fuel used v s = .ok pns' →
      ∀ x ∈ pns'.leaves, LeafOK cfg.lnodeMaxCap x
  | .nil, pns', _, h => by simp [PNodes.insert] at h
  | .cons v' sc cd rest, pns', hp, h => by
    simp only [PNodes.leaves, List.mem_append] at hp
    unfold PNodes.insert at h
    split at h
    · split at h
      · cases h
      · rename_i cd' hcd'
        split at h
        · cases h
        · cases h
          have := CDir.insert_leaves hc (fun x hx => hp x (Or.inl hx)) hcd'
          intro x hx
          simp only [PNodes.leaves, List.mem_append] at hx
          exact hx.elim (this x) (fun hx => hp x (Or.inr hx))
    · split at h
      · cases h
      · rename_i rest' hr
        cases h
        have := PNodes.insert_leaves hc (fun x hx => hp x (Or.inr hx)) hr
        intro x hx
        simp only [PNodes.leaves, List.mem_append] at hx
        exact hx.elim (fun hx => hp x (Or.inl hx)) (this x)

theorem CDir.insert_leaves {R : Rounding} {cfg : Config} (hc : 0 < cfg.lnodeMaxCap) {fuel : Nat} {used : List Nat}
    {s : Sub} :
    ∀ {cd cd' : CDir}, (∀ x ∈ cd.leaves, LeafOK cfg.lnodeMaxCap x) → cd.insert R cfg fuel used s = .ok cd' →
      ∀ x ∈ cd'.leaves, LeafOK cfg.lnodeMaxCap x
  | .leaf v b (.mk subs max pns), cd', hp, h => by
    simp only [CDir.leaves, CNode.leaves, List.mem_cons] at hp
    unfold CDir.insert at h
    split at h
    · refine (restructure_leaves R cfg hc fuel).2 _ _ _ ?_ ?_ h
      · intro subs' max' pns' he
        simp only [CDir.cnode] at he
        cases he
        exact ⟨fun x hx => hp x (Or.inr hx), (hp _ (Or.inl rfl)).2⟩
      · intro v b c l r he; cases he
    · split at h
      · cases h
      · rename_i pns' hp'
        cases h
        have := PNodes.insert_leaves hc (fun x hx => hp x (Or.inr hx)) hp'
        intro x hx
        simp only [CDir.leaves, CNode.leaves, List.mem_cons] at hx
        exact hx.elim (fun hx => hp x (Or.inl hx)) (this x)
  | .node v b (.mk subs max pns) l r, cd', hp, h => by
    simp only [CDir.leaves, CNode.leaves, List.mem_append, List.mem_cons] at hp
    unfold CDir.insert at h
    split at h
    · cases h
    · split at h
      · cases h
      · rename_i l' hl'
        cases h
        have := CDir.insert_leaves hc (fun x hx => hp x (Or.inl (Or.inr hx))) hl'
        intro x hx
        simp only [CDir.leaves, CNode.leaves, List.mem_append, List.mem_cons] at hx
        rcases hx with (hx | hx) | hx
        · exact hp x (Or.inl (Or.inl hx))
        · exact this x hx
        · exact hp x (Or.inr hx)
    · split at h
      · cases h
      · split at h
        · cases h
        · rename_i r' hr'
          cases h
          have := CDir.insert_leaves hc (fun x hx => hp x (Or.inr hx)) hr'
          intro x hx
          simp only [CDir.leaves, CNode.leaves, List.mem_append, List.mem_cons] at hx
          exact hx.elim (fun hx => hp x (Or.inl hx)) (this x)
      · split at h
        · refine (restructure_leaves R cfg hc fuel).2 _ _ _ ?_ ?_ h
          · intro subs' max' pns' he
            simp only [CDir.cnode] at he
            cases he
            exact ⟨fun x hx => hp x (Or.inl (Or.inl (Or.inr hx))), (hp _ (Or.inl (Or.inl (Or.inl rfl)))).2⟩
          · intro v b c l r he x hx
            cases he
            rcases List.mem_append.1 hx with hx | hx
            · exact hp x (Or.inl (Or.inr hx))
            · exact hp x (Or.inr hx)
        · split at h
          · cases h
          · rename_i pns' hp'
            cases h
            have := PNodes.insert_leaves hc (fun x hx => hp x (Or.inl (Or.inl (Or.inr hx)))) hp'
            intro x hx
            simp only [CDir.leaves, CNode.leaves, List.mem_append, List.mem_cons] at hx
            rcases hx with ((hx | hx) | hx) | hx
            · exact hp x (Or.inl (Or.inl (Or.inl hx)))
            · exact this x hx
            · exact hp x (Or.inl (Or.inr hx))
            · exact hp x (Or.inr hx)
end

theorem CNode.insert_leaves {R : Rounding} {cfg : Config} (hc : 0 < cfg.lnodeMaxCap) {s : Sub} {c c' : CNode}
    (hp : ∀ x ∈ c.leaves, LeafOK cfg.lnodeMaxCap x) (h : c.insert R cfg s = .ok c') :
    ∀ x ∈ c'.leaves, LeafOK cfg.lnodeMaxCap x := by
  obtain ⟨subs, max, pns⟩ := c
  simp only [CNode.leaves, List.mem_cons] at hp
  simp only [CNode.insert] at h
  split at h
  · exact (restructure_leaves R cfg hc _).1 _ _ _ _ _ (fun x hx => hp x (Or.inr hx)) h
  · split at h
    · cases h
    · rename_i pns' hp'
      cases h
      have := PNodes.insert_leaves hc (fun x hx => hp x (Or.inr hx)) hp'
      intro x hx
      simp only [CNode.leaves, List.mem_cons] at hx
      exact hx.elim (fun hx => hp x (Or.inl hx)) (this x)

/-- a call either leaves the tree's nodes alone or inserts one subscription under the configuration it leaves behind -/
theorem step_root {R : Rounding} {w w' : World} {o : Op} (h : w.step R o = .ok w') :
    w'.tree.root = w.tree.root ∨ ∃ s, w.tree.root.insert R w'.tree.cfg s = .ok w'.tree.root := by
  cases o with
  | insert q =>
    simp only [World.step] at h
    split at h
    · cases h
    · rename_i t ht
      cases h
      unfold Tree.insert at ht
      split at ht
      · cases ht
      · cases ht
      · split at ht
        · cases ht
        · rename_i root' hroot
          cases ht
          exact Or.inr ⟨_, hroot⟩
    · rename_i t ht
      cases h
      unfold Tree.insert at ht
      split at ht
      · cases ht
      · cases ht; exact Or.inl rfl
      · split at ht <;> cases ht
  | makeSub q =>
    simp only [World.step] at h
    split at h
    · cases h
    · rename_i s t ht
      cases h
      exact Or.inl (makeSub_api_root ht)
    · rename_i t ht
      cases h
      exact Or.inl (makeSub_api_root ht)
  | insertSub k =>
    simp only [World.step] at h
    split at h
    · cases h; exact Or.inl rfl
    · split at h
      · cases h
      · rename_i t ht
        cases h
        unfold Tree.insertSub at ht
        split at ht
        · cases ht
        · rename_i root' hroot
          cases ht
          exact Or.inr ⟨_, hroot⟩
  | changeBoundaries e =>
    simp only [World.step] at h
    split at h
    · cases h
    · rename_i t ht
      cases h
      exact Or.inl (changeBoundaries_root ht)

theorem run_leaves {R : Rounding} {cap : Nat} (hc : 0 < cap) {ops : List Op} : ∀ {w w' : World},
    w.tree.cfg.lnodeMaxCap = cap → (∀ x ∈ w.tree.root.leaves, LeafOK cap x) → w.run R ops = .ok w' →
    ∀ x ∈ w'.tree.root.leaves, LeafOK cap x := by
  induction ops with
  | nil => intro w w' _ hw h; cases h; exact hw
  | cons o os ih =>
    intro w w' hcap hw h
    simp only [World.run] at h
    split at h
    · cases h
    · rename_i w1 h1
      have hcap1 : w1.tree.cfg.lnodeMaxCap = cap := (step_ext h1).cap.trans hcap
      refine ih hcap1 ?_ h
      rcases step_root h1 with hr | ⟨s, hr⟩
      · rw [hr]; exact hw
      · rw [← hcap1] at hw hc ⊢
        exact CNode.insert_leaves hc hw hr

theorem makeTree_cap (cap min : Nat) (decls : List (Str × Decl × Bool)) :
    (makeTree cap min decls).cfg.lnodeMaxCap = cap % 256 := by
  suffices H : ∀ cfg : Config, (decls.foldl (fun cfg d => declare cfg d.1 d.2.1 d.2.2) cfg).lnodeMaxCap = cfg.lnodeMaxCap from
    H (makeConfig cap min)
  induction decls with
  | nil => intro cfg; rfl
  | cons d ds ih =>
    intro cfg
    rw [List.foldl_cons, ih]
    obtain ⟨a, d, u⟩ := d
    cases d <;> rfl

theorem makeTree_root (cap min : Nat) (decls : List (Str × Decl × Bool)) :
    (makeTree cap min decls).root = .mk [] (cap % 256) .nil := by
  have := makeTree_cap cap min decls
  simp only [makeTree, emptyCNode] at this ⊢
  rw [this]

theorem partition_cap_zero (R : Rounding) (cfg : Config) (hc : cfg.lnodeMaxCap = 0) (fuel : Nat) :
    ∀ used subs max pns c, partition R cfg fuel used subs max pns ≠ .ok c := by
  induction fuel with
  | zero => intro used subs max pns c h; unfold partition at h; cases h
  | succ fuel ih =>
    intro used subs max pns c h
    have hf : ∀ ss ps c, finishPartition cfg ss ps ≠ .ok c := by
      intro ss ps c h; simp [finishPartition, clusterCapacity, hc] at h
    unfold partition at h
    repeat' split at h
    all_goals first | exact hf _ _ _ h | exact ih _ _ _ _ _ h | cases h

theorem insert_cap_zero {R : Rounding} {cfg : Config} (hc : cfg.lnodeMaxCap = 0) {s : Sub} {m : Nat} {c : CNode} :
    CNode.insert R cfg s (.mk [] m .nil) ≠ .ok c := by
  intro h
  simp only [CNode.insert] at h
  split at h
  · exact partition_cap_zero R cfg hc _ _ _ _ _ _ h
  · simp [PNodes.insert] at h

theorem run_cap_zero {R : Rounding} {m : Nat} {ops : List Op} : ∀ {w w' : World},
    w.tree.cfg.lnodeMaxCap = 0 → w.tree.root = .mk [] m .nil → w.run R ops = .ok w' → w'.tree.root = .mk [] m .nil := by
  induction ops with
  | nil => intro w w' _ hw h; cases h; exact hw
  | cons o os ih =>
    intro w w' hcap hw h
    simp only [World.run] at h
    split at h
    · cases h
    · rename_i w1 h1
      have hcap1 : w1.tree.cfg.lnodeMaxCap = 0 := (step_ext h1).cap.trans hcap
      refine ih hcap1 ?_ h
      rcases step_root h1 with hr | ⟨s, hr⟩
      · rw [hr]; exact hw
      · rw [hw] at hr
        exact absurd hr (insert_cap_zero hcap1)

/-- C24: after any sequence of calls on a new tree, each leaf list holds at most the capacity it advertises, and that
capacity is a positive multiple of the configured one (the parameter of `betree_make_with_parameters`, of which the
configuration keeps 8 bits). -/
theorem C24_leaf_capacity (R : Rounding) (cap min : Nat) (decls : List (Str × Decl × Bool)) (ops : List Op) (w : World)
    (h : (World.init (makeTree cap min decls)).run R ops = .ok w) :
    w.tree.cfg.lnodeMaxCap = cap % 256 ∧ ∀ x ∈ w.tree.root.leaves, LeafOK (cap % 256) x := by
  have hcap := makeTree_cap cap min decls
  have hroot := makeTree_root cap min decls
  refine ⟨(run_ext h).cap.trans hcap, ?_⟩
  rcases Nat.eq_zero_or_pos (cap % 256) with h0 | hpos
  · rw [run_cap_zero (hcap.trans h0) hroot h, h0]
    intro x hx
    simp only [CNode.leaves, PNodes.leaves, List.mem_singleton] at hx
    subst hx
    exact ⟨Nat.le_refl _, 1, by decide, rfl⟩
  · refine run_leaves hpos hcap ?_ h
    intro x hx
    simp only [World.init, hroot, CNode.leaves, PNodes.leaves, List.mem_singleton] at hx
    subst hx
    exact ⟨Nat.zero_le _, 1, by decide, by simp⟩

/-- C24 for a parameter that fits in 8 bits. -/
theorem C24_leaf_capacity_small (R : Rounding) (cap min : Nat) (decls : List (Str × Decl × Bool)) (ops : List Op)
    (w : World) (hc : cap < 256) (h : (World.init (makeTree cap min decls)).run R ops = .ok w) :
    ∀ x ∈ w.tree.root.leaves, x.1 ≤ x.2 ∧ ∃ k, 0 < k ∧ x.2 = k * cap := by
  have := (C24_leaf_capacity R cap min decls ops w h).2
  rw [Nat.mod_eq_of_lt hc] at this
  exact this

/-- the leaf lists after a history -/
def leavesAfter (R : Rounding) (t : Tree) (ops : List Op) : Option (List (Nat × Nat)) :=
  match (World.init t).run R ops with
  | .error _ => none
  | .ok w => some w.tree.root.leaves

/-- the tree of the example of C05 has four leaf lists; with capacity 1 and a minimal partition size of 3 it has fourteen,
and the root's advertises two times the configured capacity -/
example : leavesAfter exactRounding (makeTree 2 0 exampleDecls) exampleOps = some [(2, 2), (0, 2), (2, 2), (2, 2)] := by
  decide +kernel

example : leavesAfter exactRounding (makeTree 1 3 exampleDecls) exampleOps =
    some [(2, 2), (0, 1), (0, 1), (2, 2), (0, 1), (0, 1), (0, 1), (0, 1), (0, 1), (0, 1), (0, 1), (1, 1), (0, 1), (1, 1)] := by
  decide +kernel

/-- A larger parameter is silently reduced: 300 becomes 44. -/
theorem C24_parameter_truncated : (makeTree 300 0 exampleDecls).root.leaves = [(0, 44)] := by decide

/-- A capacity of 0, or of 256, which the 8-bit field reduces to 0, is not usable: no insertion returns (the code divides
by the capacity). -/
theorem C24_zero_capacity_undefined (R : Rounding) (cap min : Nat) (decls : List (Str × Decl × Bool)) (ops : List Op)
    (w : World) (h0 : cap % 256 = 0) (h : (World.init (makeTree cap min decls)).run R ops = .ok w)
    (id : Nat) (cs : List Constant) (e : Expr) (t : Tree) : w.tree.insert R id cs e ≠ .ok (true, t) := by
  intro hi
  have hcap := (C24_leaf_capacity R cap min decls ops w h).1.trans h0
  have hroot := run_cap_zero ((makeTree_cap cap min decls).trans h0) (makeTree_root cap min decls) h
  unfold Tree.insert at hi
  split at hi
  · cases hi
  · cases hi
  · rename_i sub cfg hprep
    split at hi
    · cases hi
    · rename_i root hroot'
      rw [hroot] at hroot'
      exact insert_cap_zero ((prepareInsert_ext hprep).cap.trans hcap) hroot'

example : leavesAfter exactRounding (makeTree 256 0 exampleDecls) [.makeSub ⟨1, [], exB⟩] = some [(0, 0)] := by decide +kernel

end BeTree
