import Verif.Spec.NodeMemory
import Verif.Lemmas.MemWorld
/-
The tree's own memory: every function keeps exactly the blocks of the tree it leaves.
-/
namespace BeTree

mutual
/-- the image has the form of the node -/
def CImg.Fits : CNode → CImg → Prop
  | .mk subs _ pns, .mk _ _ arr pd ps => (arr.isSome = true ↔ subs.length ≠ 0) ∧ (pd = none ↔ pns = .nil) ∧ PImgs.Fits pns ps
def PImgs.Fits : PNodes → PImgs → Prop
  | .nil, .nil => True
  | .cons _ _ cd rest, .cons _ _ d ps => DImg.Fits cd d ∧ PImgs.Fits rest ps
  | _, _ => False
def DImg.Fits : CDir → DImg → Prop
  | .leaf _ _ c, .leaf _ _ i => CImg.Fits c i
  | .node _ _ c l r, .node _ _ i x y => CImg.Fits c i ∧ DImg.Fits l x ∧ DImg.Fits r y
  | _, _ => False
end

mutual
theorem CImg.count : ∀ (c : CNode) (i : CImg), CImg.Fits c i → i.blocks.length = c.blockCount
  | .mk subs max pns, .mk c l arr pd ps, h => by
    obtain ⟨h1, h2, h3⟩ := h
    have h4 := PImgs.count pns ps h3
    simp only [CImg.blocks, CNode.blockCount, List.length_cons, List.length_append, h4]
    have h5 : arr.toList.length = if subs.length = 0 then 0 else 1 := by
      cases arr with
      | none => by_cases hs : subs.length = 0
                · rw [if_pos hs]; rfl
                · exact absurd (h1.2 hs) (by simp)
      | some a => rw [if_neg (h1.1 rfl)]; rfl
    have h6 : (dirBlocks pd).length = dirCount pns := by
      cases pns with
      | nil => rw [h2.2 rfl]; rfl
      | cons => cases pd with
        | none => exact absurd (h2.1 rfl) (by simp)
        | some p => rfl
    rw [h5, h6]
    omega
theorem PImgs.count : ∀ (p : PNodes) (i : PImgs), PImgs.Fits p i → i.blocks.length = p.blockCount
  | .nil, .nil, _ => rfl
  | .cons _ _ cd rest, .cons _ _ d ps, h => by
    have h1 := DImg.count cd d h.1
    have h2 := PImgs.count rest ps h.2
    simp only [PImgs.blocks, PNodes.blockCount, List.length_cons, List.length_append, h1, h2]
    omega
  | .nil, .cons .., h => h.elim
  | .cons .., .nil, h => h.elim
theorem DImg.count : ∀ (c : CDir) (i : DImg), DImg.Fits c i → i.blocks.length = c.blockCount
  | .leaf _ _ c, .leaf _ _ i, h => by
    have h1 := CImg.count c i h
    simp only [DImg.blocks, CDir.blockCount, List.length_cons, h1]
    omega
  | .node _ _ c l r, .node _ _ i x y, h => by
    have h1 := CImg.count c i h.1
    have h2 := DImg.count l x h.2.1
    have h3 := DImg.count r y h.2.2
    simp only [DImg.blocks, CDir.blockCount, List.length_cons, List.length_append, h1, h2, h3]
    omega
  | .leaf .., .node .., h => h.elim
  | .node .., .leaf .., h => h.elim
end

/-! ### building blocks -/

section
variable {α : Type} {Q : α → List Nat → Prop} {L L' : List Nat}

theorem makeCNodeMem_does {f : CImg → Mem α} (H : ∀ c l, Does (f (.mk c l none none .nil)) (l :: c :: L) Q) : Does (makeCNodeMem >>= f) L Q := by
  unfold makeCNodeMem
  simp only [bind_assoc, pure_bind]
  exact Does.malloc fun c => Does.malloc fun l => H c l

theorem createCDirMem_does {f : DImg → Mem α}
    (H : ∀ d n c l, Does (f (.leaf d n (.mk c l none none .nil))) (l :: c :: n :: d :: L) Q) : Does (createCDirMem >>= f) L Q := by
  unfold createCDirMem
  simp only [bind_assoc, pure_bind]
  exact Does.malloc fun d => Does.malloc fun n => makeCNodeMem_does fun c l => H d n c l

theorem growSubs_does {f : Nat → Mem α} {count : Nat} {a : Option Nat} (ha : a.isSome = true ↔ count ≠ 0) (hp : L.Perm (a.toList ++ L'))
    (H : ∀ b, Does (f b) (b :: L') Q) : Does (growSubs count a >>= f) L Q := by
  unfold growSubs
  split
  · rename_i h0
    cases a with
    | none => exact (Does.malloc H).perm (by simpa using hp)
    | some a => exact absurd h0 (ha.1 rfl)
  · rename_i h0
    cases a with
    | none => exact absurd (ha.2 h0) (by simp)
    | some a => exact Does.realloc (by simpa using hp) H

theorem shrinkSubs_does {f : Option Nat → Mem α} {count : Nat} {a : Option Nat} (ha : a.isSome = true ↔ count ≠ 0) (hc : count ≠ 0)
    (hp : L.Perm (a.toList ++ L')) (H : ∀ b : Option Nat, (b.isSome = true ↔ count - 1 ≠ 0) → Does (f b) (b.toList ++ L') Q) :
    Does (shrinkSubs count a >>= f) L Q := by
  unfold shrinkSubs
  cases a with
  | none => exact absurd (ha.2 hc) (by simp)
  | some a =>
    split
    · rename_i h0
      simp only [freeOpt, bind_assoc, pure_bind]
      exact Does.free (by simpa using hp) (by simpa using H none (by simp [h0]))
    · rename_i h0
      simp only [bind_assoc, pure_bind]
      exact Does.realloc (by simpa using hp) (fun b => by simpa using H (some b) (by simp [h0]))

/-- an array with as many entries as are counted -/
def Slots.Ok (s : Slots) : Prop := s.2.isSome = true ↔ s.1 ≠ 0

theorem moveMem_does {f : Slots × Slots → Mem α} {src dst : Slots} (hs : src.Ok) (hd : dst.Ok) (h0 : src.1 ≠ 0)
    (hp : L.Perm (src.2.toList ++ (dst.2.toList ++ L')))
    (H : ∀ src' dst' : Slots, src'.Ok → dst'.Ok → src'.1 = src.1 - 1 → dst'.1 = dst.1 + 1 →
      Does (f (src', dst')) (src'.2.toList ++ (dst'.2.toList ++ L')) Q) :
    Does (moveMem src dst >>= f) L Q := by
  unfold moveMem
  simp only [bind_assoc, pure_bind]
  refine shrinkSubs_does hs h0 hp fun a ha => growSubs_does hd (L' := a.toList ++ L') (by blocks) fun b => ?_
  refine (H (src.1 - 1, a) (dst.1 + 1, some b) ha ⟨fun _ => by simp, fun _ => rfl⟩ rfl rfl).perm ?_
  simp only [Option.toList_some]
  blocks

theorem moveAllMem_does {f : Slots × Slots → Mem α} : ∀ {k : Nat} {L : List Nat} {src dst : Slots}, src.Ok → dst.Ok → k ≤ src.1 →
    L.Perm (src.2.toList ++ (dst.2.toList ++ L')) →
    (∀ src' dst' : Slots, src'.Ok → dst'.Ok → src'.1 = src.1 - k → dst'.1 = dst.1 + k →
      Does (f (src', dst')) (src'.2.toList ++ (dst'.2.toList ++ L')) Q) →
    Does (moveAllMem k src dst >>= f) L Q := by
  intro k
  induction k with
  | zero =>
    intro L src dst hs hd _ hp H
    exact (H src dst hs hd rfl rfl).perm hp
  | succ k ih =>
    intro L src dst hs hd hk hp H
    unfold moveAllMem
    simp only [bind_assoc]
    refine moveMem_does hs hd (by omega) hp fun s d h1 h2 h3 h4 => ih h1 h2 (by dsimp only; omega) (List.Perm.refl _) fun s' d' h5 h6 h7 h8 => ?_
    dsimp only at h7 h8
    exact H s' d' h5 h6 (by omega) (by omega)

theorem moveSidesMem_does {f : Slots × Slots × Slots → Mem α} : ∀ {ss : List Bool} {L : List Nat} {src l r : Slots}, src.Ok → l.Ok → r.Ok →
    ss.length ≤ src.1 → L.Perm (src.2.toList ++ (l.2.toList ++ (r.2.toList ++ L'))) →
    (∀ src' l' r' : Slots, src'.Ok → l'.Ok → r'.Ok → src'.1 = src.1 - ss.length → l'.1 = l.1 + (ss.filter (· == true)).length →
      r'.1 = r.1 + (ss.filter (· == false)).length →
      Does (f (src', l', r')) (src'.2.toList ++ (l'.2.toList ++ (r'.2.toList ++ L'))) Q) →
    Does (moveSidesMem ss src l r >>= f) L Q := by
  intro ss
  induction ss with
  | nil =>
    intro L src l r hs hl hr _ hp H
    exact (H src l r hs hl hr rfl rfl rfl).perm hp
  | cons b ss ih =>
    intro L src l r hs hl hr hk hp H
    simp only [List.length_cons] at hk
    cases b with
    | true =>
      simp only [moveSidesMem, bind_assoc]
      refine moveMem_does (L' := r.2.toList ++ L') hs hl (by omega) hp fun s d h1 h2 h3 h4 =>
        ih h1 h2 hr (by dsimp only; omega) (List.Perm.refl _) fun s' l' r' h5 h6 h7 h8 h9 h10 => ?_
      exact H s' l' r' h5 h6 h7 (by simp only [List.length_cons] at h8 ⊢; omega) (by simp at h9 ⊢; omega) (by simp at h10 ⊢; omega)
    | false =>
      simp only [moveSidesMem, bind_assoc]
      refine moveMem_does (L' := l.2.toList ++ L') hs hr (by omega) (hp.trans (by blocks)) fun s d h1 h2 h3 h4 =>
        ih h1 hl h2 (by dsimp only; omega) (by blocks) fun s' l' r' h5 h6 h7 h8 h9 h10 => ?_
      exact H s' l' r' h5 h6 h7 (by simp only [List.length_cons] at h8 ⊢; omega) (by simp at h9 ⊢; omega) (by simp at h10 ⊢; omega)

theorem createPDirMem_does {f : (Nat × Nat) × Nat × Nat × DImg → Mem α} {pd : Option (Nat × Nat)} (hp : L.Perm (dirBlocks pd ++ L'))
    (H : ∀ dir p n d m c l, Does (f (dir, p, n, .leaf d m (.mk c l none none .nil))) (dirBlocks (some dir) ++ (p :: n :: d :: m :: c :: l :: L')) Q) :
    Does (createPDirMem pd >>= f) L Q := by
  cases pd with
  | none =>
    simp only [createPDirMem, bind_assoc, pure_bind]
    refine Does.malloc fun dir => Does.malloc fun p => Does.malloc fun n => createCDirMem_does fun d m c l => Does.malloc fun a => ?_
    refine (H (dir, a) p n d m c l).perm ?_
    simp only [dirBlocks] at hp ⊢
    exact ((List.Perm.refl [a, l, c, m, d, n, p, dir]).append hp).trans (by blocks)
  | some x =>
    obtain ⟨dir, a⟩ := x
    simp only [createPDirMem, bind_assoc, pure_bind]
    refine Does.malloc fun p => Does.malloc fun n => createCDirMem_does fun d m c l =>
      Does.realloc (b := a) (L' := l :: c :: m :: d :: n :: p :: dir :: L') ?_ fun a' => ?_
    · simp only [dirBlocks] at hp
      exact ((List.Perm.refl [l, c, m, d, n, p]).append hp).trans (by blocks)
    · refine (H (dir, a') p n d m c l).perm ?_
      simp only [dirBlocks]
      blocks

end

theorem removeSub_slots {id : Nat} : ∀ {l l' : List Sub}, removeSub id l = some l' → l.length = l'.length + 1 := by
  intro l
  induction l with
  | nil => intro l' h; cases h
  | cons s ss ih =>
    intro l' h
    unfold removeSub at h
    split at h
    · cases h; rfl
    · cases hr : removeSub id ss with
      | none => rw [hr] at h; cases h
      | some r => rw [hr] at h; cases h; simp [ih hr]

theorem moveLoop_slots {δ : Type} {dest : Sub → Except Fault (Option δ)} : ∀ {l kept kept' : List Sub} {moved moved' : List (δ × Sub)},
    moveLoop dest kept l moved = .ok (kept', moved') → kept'.length + moved'.length = kept.length + moved.length + l.length := by
  intro l
  induction l with
  | nil => intro kept kept' moved moved' h; cases h; rfl
  | cons s ss ih =>
    intro kept kept' moved moved' h
    unfold moveLoop at h
    split at h
    · cases h
    · have := ih h
      simp only [List.length_append, List.length_cons, List.length_nil] at this ⊢
      omega
    · split at h
      · rename_i hr
        have := ih h
        have := removeSub_slots hr
        simp only [List.length_append, List.length_cons, List.length_nil] at *
        omega
      · have := ih h
        simp only [List.length_append, List.length_cons, List.length_nil] at *
        omega

theorem finishPartition_eq {cfg : Config} {subs : List Sub} {pns : PNodes} {cn : CNode} (h : finishPartition cfg subs pns = .ok cn) :
    ∃ max, cn = .mk subs max pns := by
  unfold finishPartition at h
  split at h
  · cases h
  · cases h; exact ⟨_, rfl⟩

theorem PImgs.Fits.snoc {v p n : Nat} {s : Rat} {cd : CDir} {d : DImg} (hd : DImg.Fits cd d) : ∀ {pns : PNodes} {ps : PImgs}, PImgs.Fits pns ps →
    PImgs.Fits (pns.snoc v s cd) (ps.snoc p n d)
  | .nil, .nil, _ => ⟨hd, trivial⟩
  | .cons _ _ _ _, .cons _ _ _ _, h => ⟨h.1, PImgs.Fits.snoc hd h.2⟩

theorem PImgs.blocks_snoc (p n : Nat) (d : DImg) : ∀ ps : PImgs, (ps.snoc p n d).blocks.Perm (p :: n :: (d.blocks ++ ps.blocks))
  | .nil => by simp [PImgs.snoc, PImgs.blocks]
  | .cons p' n' d' ps => by
    simp only [PImgs.snoc, PImgs.blocks]
    have := PImgs.blocks_snoc p n d ps
    refine ((List.Perm.refl (p' :: n' :: d'.blocks)).append this).trans ?_
    blocks

theorem PNodes.snoc_ne (v : Nat) (s : Rat) (cd : CDir) (pns : PNodes) : pns.snoc v s cd ≠ .nil := by cases pns <;> simp [PNodes.snoc]

theorem filter_sides (m : List (Bool × Sub)) (b : Bool) : ((m.map (·.1)).filter (· == b)).length = (movedTo b m).length := by
  unfold movedTo
  rw [List.length_map]
  induction m with
  | nil => rfl
  | cons x m ih => simp only [List.map_cons, List.filter_cons]; split <;> simp_all

/-! ### the tree -/

/-- leaves the node with an image that fits it, and exactly its blocks -/
def LeavesC (cn : CNode) (r : CNode × CImg) (M : List Nat) : Prop := r.1 = cn ∧ M = r.2.blocks ∧ CImg.Fits cn r.2
def LeavesP (pns : PNodes) (r : PNodes × PImgs) (M : List Nat) : Prop := r.1 = pns ∧ M = r.2.blocks ∧ PImgs.Fits pns r.2
def LeavesD (cd : CDir) (r : CDir × DImg) (M : List Nat) : Prop := r.1 = cd ∧ M = r.2.blocks ∧ DImg.Fits cd r.2

theorem tree_mem (R : Rounding) (cfg : Config) : ∀ fuel,
    (∀ used subs max pns i cn, CImg.Fits (.mk subs max pns) i → partition R cfg fuel used subs max pns = .ok cn →
      Does (partitionMem R cfg fuel used subs max pns i) i.blocks (LeavesC cn)) ∧
    (∀ used cd d cd', DImg.Fits cd d → cluster R cfg fuel used cd = .ok cd' →
      Does (clusterMem R cfg fuel used cd d) d.blocks (LeavesD cd')) := by
  intro fuel
  induction fuel with
  | zero => exact ⟨fun _ _ _ _ _ _ _ h => by simp [partition] at h, fun _ _ _ _ _ h => by simp [cluster] at h⟩
  | succ fuel ih =>
    obtain ⟨ihp, ihc⟩ := ih
    constructor
    · intro used subs max pns i cn hf h
      obtain ⟨c, l, arr, pd, ps⟩ := i
      obtain ⟨f1, f2, f3⟩ := hf
      have stop : ∀ {cn : CNode}, finishPartition cfg subs pns = .ok cn →
          Does (do let cn ← liftMem (finishPartition cfg subs pns); pure (cn, CImg.mk c l arr pd ps)) (CImg.mk c l arr pd ps).blocks (LeavesC cn) := by
        intro cn h
        refine Does.lift h (Does.pure (List.Perm.refl _) ⟨rfl, rfl, ?_⟩)
        obtain ⟨m, rfl⟩ := finishPartition_eq h
        exact ⟨f1, f2, f3⟩
      simp only [partition] at h
      simp only [partitionMem]
      split at h
      · rename_i hov
        rw [if_pos hov]
        cases hn : nextHighest R cfg used subs with
        | error e => rw [hn] at h; cases h
        | ok o =>
          rw [hn] at h
          refine Does.lift rfl ?_
          cases o with
          | none => exact stop h
          | some v =>
            dsimp only at h ⊢
            split at h
            · rename_i hm
              rw [if_pos hm]
              exact stop h
            · rename_i hm
              rw [if_neg hm]
              cases hd : getDomain cfg v with
              | error e => rw [hd] at h; cases h
              | ok d =>
                rw [hd] at h
                dsimp only at h
                refine Does.lift rfl ?_
                cases hmv : moveLoop (fun s => .ok (if s.has v then some () else none)) [] subs [] with
                | error e => rw [hmv] at h; cases h
                | ok km =>
                  obtain ⟨kept, moved⟩ := km
                  rw [hmv] at h
                  dsimp only at h
                  have hlen := moveLoop_slots hmv
                  simp only [List.length_nil] at hlen
                  cases hcl : cluster R cfg fuel used (.leaf v d.bound (.mk (moved.map (·.2)) cfg.lnodeMaxCap .nil)) with
                  | error e => rw [hcl] at h; cases h
                  | ok cdir =>
                    rw [hcl] at h
                    dsimp only at h
                    refine createPDirMem_does (pd := pd) (L' := c :: l :: (arr.toList ++ ps.blocks)) (by simp only [CImg.blocks]; blocks)
                      fun dir p n dd m cc ll => Does.lift rfl ?_
                    dsimp only
                    refine moveAllMem_does (L' := dirBlocks (some dir) ++ (p :: n :: dd :: m :: cc :: ll :: c :: l :: ps.blocks))
                      (src := (subs.length, arr)) (dst := (0, none)) f1 (by simp [Slots.Ok]) (by dsimp only; omega)
                      (by simp only [Option.toList_none]; blocks) fun src dst h1 h2 h3 h4 => ?_
                    dsimp only [DImg.withSubs]
                    refine Does.seq (P := (DImg.leaf dd m (.mk cc ll dst.2 none .nil)).blocks)
                      (L' := src.2.toList ++ (dirBlocks (some dir) ++ (p :: n :: c :: l :: ps.blocks))) ?_ (ihc used _ _ cdir ?_ hcl) ?_
                    · simp only [DImg.blocks, CImg.blocks, PImgs.blocks, dirBlocks]; blocks
                    · refine ⟨?_, by simp, trivial⟩
                      have h5 := h2
                      unfold Slots.Ok at h5
                      rw [h5, h4]
                      simp
                    · rintro ⟨cd1, cd2⟩ M ⟨rfl, rfl, hfd⟩
                      dsimp only
                      refine (ihp used kept max (pns.snoc v 0 cd1) (.mk c l src.2 (some dir) (ps.snoc p n cd2)) cn ?_ h).perm ?_
                      · refine ⟨?_, by simp [PNodes.snoc_ne], f3.snoc hfd⟩
                        have h5 := h1
                        unfold Slots.Ok at h5
                        rw [h5, h3]
                        dsimp only
                        constructor <;> intro <;> omega
                      · simp only [CImg.blocks]
                        have h6 := PImgs.blocks_snoc p n cd2 ps
                        rw [List.perm_iff_count] at h6 ⊢
                        intro x
                        have h7 := h6 x
                        simp only [List.count_cons, List.count_append] at h7 ⊢
                        omega
      · rename_i hov
        rw [if_neg hov]
        exact stop h
    · intro used cd d cd' hf h
      cases cd with
      | node v b cn l r =>
        obtain ⟨subs, max, pns⟩ := cn
        cases d with
        | leaf => exact hf.elim
        | node d n c x y =>
          obtain ⟨f1, f2, f3⟩ := hf
          simp only [cluster] at h
          simp only [clusterMem]
          split at h
          · rename_i hov
            rw [if_pos hov]
            cases hp : partition R cfg fuel (v :: used) subs max pns with
            | error e => rw [hp] at h; cases h
            | ok cn =>
              rw [hp] at h
              cases h
              refine Does.seq (P := c.blocks) (L' := d :: n :: (x.blocks ++ y.blocks)) (by simp only [DImg.blocks]; blocks)
                (ihp _ _ _ _ c cn f1 hp) ?_
              rintro ⟨c1, c2⟩ M ⟨rfl, rfl, g⟩
              exact Does.pure (by simp only [DImg.blocks]; blocks) ⟨rfl, rfl, g, f2, f3⟩
          · rename_i hov
            rw [if_neg hov]
            cases h
            exact Does.pure (List.Perm.refl _) ⟨rfl, rfl, f1, f2, f3⟩
      | leaf v b cn =>
        obtain ⟨subs, max, pns⟩ := cn
        cases d with
        | node => exact hf.elim
        | leaf d n c =>
          obtain ⟨c, l, arr, pd, ps⟩ := c
          have hf' : CImg.Fits (.mk subs max pns) (.mk c l arr pd ps) := hf
          obtain ⟨f1, f2, f3⟩ := hf'
          simp only [cluster] at h
          simp only [clusterMem]
          split at h
          · rename_i hov
            rw [if_pos hov]
            cases ha : isAtomic b with
            | error e => rw [ha] at h; cases h
            | ok at_ =>
              rw [ha] at h
              refine Does.lift rfl ?_
              cases at_ with
              | true =>
                dsimp only at h
                rw [if_pos rfl]
                cases hp : partition R cfg fuel (v :: used) subs max pns with
                | error e => rw [hp] at h; cases h
                | ok cn =>
                  rw [hp] at h
                  cases h
                  refine Does.seq (P := (CImg.mk c l arr pd ps).blocks) (L' := [d, n]) (by simp only [DImg.blocks]; blocks)
                    (ihp _ _ _ _ (.mk c l arr pd ps) cn ⟨f1, f2, f3⟩ hp) ?_
                  rintro ⟨c1, c2⟩ M ⟨rfl, rfl, g⟩
                  exact Does.pure (by simp only [DImg.blocks]; blocks) ⟨rfl, rfl, g⟩
              | false =>
                dsimp only at h
                rw [if_neg (by simp)]
                cases hs : splitBound b with
                | error e => rw [hs] at h; cases h
                | ok bs =>
                  obtain ⟨bl, br⟩ := bs
                  rw [hs] at h
                  dsimp only at h
                  refine Does.lift rfl ?_
                  cases hmv : moveLoop (clusterDest cfg v bl br) [] subs [] with
                  | error e => rw [hmv] at h; cases h
                  | ok km =>
                    obtain ⟨kept, moved⟩ := km
                    rw [hmv] at h
                    dsimp only at h
                    have hlen := moveLoop_slots hmv
                    simp only [List.length_nil] at hlen
                    cases hp : partition R cfg fuel (v :: used) kept max pns with
                    | error e => rw [hp] at h; cases h
                    | ok cn =>
                      rw [hp] at h
                      dsimp only at h
                      cases hl : cluster R cfg fuel used (.leaf v bl (.mk (movedTo true moved) cfg.lnodeMaxCap .nil)) with
                      | error e => rw [hl] at h; cases h
                      | ok cl =>
                        rw [hl] at h
                        dsimp only at h
                        cases hr : cluster R cfg fuel used (.leaf v br (.mk (movedTo false moved) cfg.lnodeMaxCap .nil)) with
                        | error e => rw [hr] at h; cases h
                        | ok cr =>
                          rw [hr] at h
                          cases h
                          refine createCDirMem_does fun d1 n1 c1 l1 => createCDirMem_does fun d2 n2 c2 l2 => Does.lift rfl ?_
                          dsimp only
                          refine moveSidesMem_does
                            (L' := l2 :: c2 :: n2 :: d2 :: l1 :: c1 :: n1 :: d1 :: d :: n :: c :: l :: (dirBlocks pd ++ ps.blocks))
                            (src := (subs.length, arr)) (l := (0, none)) (r := (0, none)) f1 (by simp [Slots.Ok]) (by simp [Slots.Ok])
                            (by dsimp only; rw [List.length_map]; omega) (by simp only [DImg.blocks, CImg.blocks, Option.toList_none]; blocks)
                            fun src sl sr h1 h2 h3 h4 h5 h6 => ?_
                          dsimp only [DImg.withSubs]
                          rw [filter_sides] at h5 h6
                          rw [List.length_map] at h4
                          unfold Slots.Ok at h1 h2 h3
                          dsimp only at h4 h5 h6
                          refine Does.seq (P := (CImg.mk c l src.2 pd ps).blocks)
                            (L' := sl.2.toList ++ (sr.2.toList ++ (l2 :: c2 :: n2 :: d2 :: l1 :: c1 :: n1 :: d1 :: d :: n :: [])))
                            (by simp only [CImg.blocks]; blocks) (ihp _ _ _ _ (.mk c l src.2 pd ps) cn ⟨?_, f2, f3⟩ hp) ?_
                          · rw [h1, h4]
                            constructor <;> intro <;> omega
                          rintro ⟨p1, p2⟩ M ⟨rfl, rfl, g1⟩
                          dsimp only
                          refine Does.seq (P := (DImg.leaf d1 n1 (.mk c1 l1 sl.2 none .nil)).blocks)
                            (L' := p2.blocks ++ (sr.2.toList ++ (l2 :: c2 :: n2 :: d2 :: d :: n :: [])))
                            (by simp only [DImg.blocks, CImg.blocks, dirBlocks, PImgs.blocks]; blocks) (ihc _ _ _ cl ⟨?_, by simp, trivial⟩ hl) ?_
                          · rw [h2, h5]; simp
                          rintro ⟨x1, x2⟩ M ⟨rfl, rfl, g2⟩
                          dsimp only
                          refine Does.seq (P := (DImg.leaf d2 n2 (.mk c2 l2 sr.2 none .nil)).blocks)
                            (L' := p2.blocks ++ (x2.blocks ++ (d :: n :: [])))
                            (by simp only [DImg.blocks, CImg.blocks, dirBlocks, PImgs.blocks]; blocks) (ihc _ _ _ cr ⟨?_, by simp, trivial⟩ hr) ?_
                          · rw [h3, h6]; simp
                          rintro ⟨y1, y2⟩ M ⟨rfl, rfl, g3⟩
                          exact Does.pure (by simp only [DImg.blocks]; blocks) ⟨rfl, rfl, g1, g2, g3⟩
          · rename_i hov
            rw [if_neg hov]
            cases h
            exact Does.pure (List.Perm.refl _) ⟨rfl, rfl, f1, f2, f3⟩

theorem insert_nil {R : Rounding} {cfg : Config} {fuel : Nat} {used : List Nat} {v : Nat} {s : Sub} {pns pns' : PNodes}
    (h : pns.insert R cfg fuel used v s = .ok pns') : pns = .nil ↔ pns' = .nil := by
  cases pns with
  | nil => simp only [PNodes.insert] at h; cases h
  | cons v' sc cd rest =>
    simp only [PNodes.insert] at h
    split at h <;> split at h <;> try split at h
    all_goals first | (cases h; done) | (cases h; simp)

mutual
theorem PNodes.insertMem_does (R : Rounding) (cfg : Config) (fuel : Nat) (used : List Nat) (v : Nat) (s : Sub) :
    ∀ (pns : PNodes) (ps : PImgs) (pns' : PNodes), PImgs.Fits pns ps → pns.insert R cfg fuel used v s = .ok pns' →
      Does (pns.insertMem R cfg fuel used v s ps) ps.blocks (LeavesP pns')
  | .nil, .nil, _, _, h => by cases h
  | .nil, .cons .., _, hf, _ => hf.elim
  | .cons .., .nil, _, hf, _ => hf.elim
  | .cons v' sc cd rest, .cons p n d ps, pns', ⟨f1, f2⟩, h => by
    simp only [PNodes.insert] at h
    simp only [PNodes.insertMem]
    split at h
    · rename_i hv
      rw [if_pos hv]
      cases hc : cd.insert R cfg fuel used s with
      | error e => rw [hc] at h; cases h
      | ok cd' =>
        rw [hc] at h
        dsimp only at h
        cases hs : partitionScore R cfg v cd' with
        | error e => rw [hs] at h; cases h
        | ok sc' =>
          rw [hs] at h
          cases h
          refine Does.seq (P := d.blocks) (L' := p :: n :: ps.blocks) (by simp only [PImgs.blocks]; blocks)
            (CDir.insertMem_does R cfg fuel used s cd d cd' f1 hc) ?_
          rintro ⟨c1, c2⟩ M ⟨rfl, rfl, g⟩
          dsimp only
          exact Does.lift hs (Does.pure (by simp only [PImgs.blocks]; blocks) ⟨rfl, rfl, g, f2⟩)
    · rename_i hv
      rw [if_neg hv]
      cases hr : rest.insert R cfg fuel used v s with
      | error e => rw [hr] at h; cases h
      | ok rest' =>
        rw [hr] at h
        cases h
        refine Does.seq (P := ps.blocks) (L' := p :: n :: d.blocks) (by simp only [PImgs.blocks]; blocks)
          (PNodes.insertMem_does R cfg fuel used v s rest ps rest' f2 hr) ?_
        rintro ⟨c1, c2⟩ M ⟨rfl, rfl, g⟩
        exact Does.pure (by simp only [PImgs.blocks]; blocks) ⟨rfl, rfl, f1, g⟩
theorem CDir.insertMem_does (R : Rounding) (cfg : Config) (fuel : Nat) (used : List Nat) (s : Sub) :
    ∀ (cd : CDir) (d : DImg) (cd' : CDir), DImg.Fits cd d → cd.insert R cfg fuel used s = .ok cd' →
      Does (cd.insertMem R cfg fuel used s d) d.blocks (LeavesD cd')
  | .leaf .., .node .., _, hf, _ => hf.elim
  | .node .., .leaf .., _, hf, _ => hf.elim
  | .leaf v b (.mk subs max pns), .leaf d n (.mk c l arr pd ps), cd', ⟨f1, f2, f3⟩, h => by
    simp only [CDir.insert] at h
    simp only [CDir.insertMem]
    cases hc : choosePartition cfg (v :: used) s pns with
    | none =>
      rw [hc] at h
      dsimp only at h ⊢
      refine growSubs_does f1 (L' := d :: n :: c :: l :: (dirBlocks pd ++ ps.blocks)) (by simp only [DImg.blocks, CImg.blocks]; blocks) fun a => ?_
      refine ((tree_mem R cfg fuel).2 used (.leaf v b (.mk (subs ++ [s]) max pns)) (.leaf d n (.mk c l (some a) pd ps)) cd' ⟨by simp, f2, f3⟩ h).perm ?_
      simp only [DImg.blocks, CImg.blocks, Option.toList_some]
      blocks
    | some w =>
      rw [hc] at h
      dsimp only at h ⊢
      cases hp : pns.insert R cfg fuel (v :: used) w s with
      | error e => rw [hp] at h; cases h
      | ok pns' =>
        rw [hp] at h
        cases h
        refine Does.seq (P := ps.blocks) (L' := d :: n :: c :: l :: (arr.toList ++ dirBlocks pd)) (by simp only [DImg.blocks, CImg.blocks]; blocks)
          (PNodes.insertMem_does R cfg fuel (v :: used) w s pns ps pns' f3 hp) ?_
        rintro ⟨c1, c2⟩ M ⟨rfl, rfl, g⟩
        refine Does.pure (by simp only [DImg.blocks, CImg.blocks]; blocks) ⟨rfl, rfl, f1, ?_, g⟩
        rw [f2]
        exact insert_nil hp
  | .node v b (.mk subs max pns) l r, .node d n (.mk c ln arr pd ps) x y, cd', ⟨⟨f1, f2, f3⟩, f4, f5⟩, h => by
    simp only [CDir.insert] at h
    simp only [CDir.insertMem]
    cases hel : subIsEnclosed cfg s l.var l.bound with
    | error e => rw [hel] at h; cases h
    | ok bl =>
      rw [hel] at h
      refine Does.lift rfl ?_
      cases bl with
      | true =>
        dsimp only at h
        rw [if_pos rfl]
        cases hl : l.insert R cfg fuel used s with
        | error e => rw [hl] at h; cases h
        | ok l' =>
          rw [hl] at h
          cases h
          refine Does.seq (P := x.blocks) (L' := d :: n :: ((CImg.mk c ln arr pd ps).blocks ++ y.blocks)) (by simp only [DImg.blocks]; blocks)
            (CDir.insertMem_does R cfg fuel used s l x l' f4 hl) ?_
          rintro ⟨c1, c2⟩ M ⟨rfl, rfl, g⟩
          exact Does.pure (by simp only [DImg.blocks]; blocks) ⟨rfl, rfl, ⟨f1, f2, f3⟩, g, f5⟩
      | false =>
        dsimp only at h
        rw [if_neg (by simp)]
        cases her : subIsEnclosed cfg s r.var r.bound with
        | error e => rw [her] at h; cases h
        | ok br =>
          rw [her] at h
          refine Does.lift rfl ?_
          cases br with
          | true =>
            dsimp only at h
            rw [if_pos rfl]
            cases hr : r.insert R cfg fuel used s with
            | error e => rw [hr] at h; cases h
            | ok r' =>
              rw [hr] at h
              cases h
              refine Does.seq (P := y.blocks) (L' := d :: n :: ((CImg.mk c ln arr pd ps).blocks ++ x.blocks)) (by simp only [DImg.blocks]; blocks)
                (CDir.insertMem_does R cfg fuel used s r y r' f5 hr) ?_
              rintro ⟨c1, c2⟩ M ⟨rfl, rfl, g⟩
              exact Does.pure (by simp only [DImg.blocks]; blocks) ⟨rfl, rfl, ⟨f1, f2, f3⟩, f4, g⟩
          | false =>
            dsimp only at h
            rw [if_neg (by simp)]
            cases hc : choosePartition cfg (v :: used) s pns with
            | none =>
              rw [hc] at h
              dsimp only at h ⊢
              refine growSubs_does f1 (L' := d :: n :: c :: ln :: (dirBlocks pd ++ (ps.blocks ++ (x.blocks ++ y.blocks))))
                (by simp only [DImg.blocks, CImg.blocks]; blocks) fun a => ?_
              refine ((tree_mem R cfg fuel).2 used (.node v b (.mk (subs ++ [s]) max pns) l r) (.node d n (.mk c ln (some a) pd ps) x y) cd' ⟨⟨by simp, f2, f3⟩, f4, f5⟩ h).perm ?_
              simp only [DImg.blocks, CImg.blocks, Option.toList_some]
              blocks
            | some w =>
              rw [hc] at h
              dsimp only at h ⊢
              cases hp : pns.insert R cfg fuel (v :: used) w s with
              | error e => rw [hp] at h; cases h
              | ok pns' =>
                rw [hp] at h
                cases h
                refine Does.seq (P := ps.blocks) (L' := d :: n :: c :: ln :: (arr.toList ++ (dirBlocks pd ++ (x.blocks ++ y.blocks))))
                  (by simp only [DImg.blocks, CImg.blocks]; blocks)
                  (PNodes.insertMem_does R cfg fuel (v :: used) w s pns ps pns' f3 hp) ?_
                rintro ⟨c1, c2⟩ M ⟨rfl, rfl, g⟩
                refine Does.pure (by simp only [DImg.blocks, CImg.blocks]; blocks) ⟨rfl, rfl, ⟨f1, ?_, g⟩, f4, f5⟩
                rw [f2]
                exact insert_nil hp
end

theorem CNode.insertMem_does (R : Rounding) (cfg : Config) (s : Sub) {c c' : CNode} {i : CImg} (hf : CImg.Fits c i)
    (h : c.insert R cfg s = .ok c') : Does (c.insertMem R cfg s i) i.blocks (LeavesC c') := by
  obtain ⟨subs, max, pns⟩ := c
  obtain ⟨c, l, arr, pd, ps⟩ := i
  obtain ⟨f1, f2, f3⟩ := hf
  simp only [CNode.insert] at h
  simp only [CNode.insertMem]
  cases hc : choosePartition cfg [] s pns with
  | none =>
    rw [hc] at h
    dsimp only at h ⊢
    refine growSubs_does f1 (L' := c :: l :: (dirBlocks pd ++ ps.blocks)) (by simp only [CImg.blocks]; blocks) fun a => ?_
    refine ((tree_mem R cfg _).1 [] _ _ _ (.mk c l (some a) pd ps) c' ⟨by simp, f2, f3⟩ h).perm ?_
    simp only [CImg.blocks, Option.toList_some]
    blocks
  | some v =>
    rw [hc] at h
    dsimp only at h ⊢
    cases hp : pns.insert R cfg (insertFuel cfg (.mk subs max pns)) [] v s with
    | error e => rw [hp] at h; cases h
    | ok pns' =>
      rw [hp] at h
      cases h
      refine Does.seq (P := ps.blocks) (L' := c :: l :: (arr.toList ++ dirBlocks pd)) (by simp only [CImg.blocks]; blocks)
        (PNodes.insertMem_does R cfg _ [] v s pns ps pns' f3 hp) ?_
      rintro ⟨c1, c2⟩ M ⟨rfl, rfl, g⟩
      refine Does.pure (by simp only [CImg.blocks]; blocks) ⟨rfl, rfl, f1, ?_, g⟩
      rw [f2]
      exact insert_nil hp

/-! ### freeing -/

theorem Gone.bind {p : Mem Unit} {f : Unit → Mem Unit} {P R L : List Nat} (hp : Gone p P) (h : L.Perm (P ++ R)) (hf : Gone (f ()) R) :
    Gone (p >>= f) L := Does.seq h hp fun _ _ hM => by subst hM; exact hf

mutual
theorem CImg.free_does : ∀ i : CImg, Gone i.free i.blocks
  | .mk c l arr pd ps => by
    simp only [CImg.free]
    refine (freeOpt_does arr).bind (R := c :: l :: (dirBlocks pd ++ ps.blocks)) (by simp only [CImg.blocks]; blocks) ?_
    refine Does.free (L' := c :: (dirBlocks pd ++ ps.blocks)) (by blocks) ?_
    refine (PImgs.free_does ps).bind (R := c :: dirBlocks pd) (by blocks) ?_
    cases pd with
    | none => exact Does.freeLast (by simp [dirBlocks])
    | some x =>
      obtain ⟨dir, a⟩ := x
      refine Does.free (L' := [c, dir]) (by simp only [dirBlocks]; blocks) ?_
      exact Does.free (L' := [c]) (by blocks) (Does.freeLast (List.Perm.refl _))
theorem PImgs.free_does : ∀ i : PImgs, Gone i.free i.blocks
  | .nil => by
    simp only [PImgs.free]
    exact Does.pure (List.Perm.refl _) rfl
  | .cons p n d ps => by
    simp only [PImgs.free]
    refine Does.free (L' := p :: (d.blocks ++ ps.blocks)) (by simp only [PImgs.blocks]; blocks) ?_
    refine (DImg.free_does d).bind (R := p :: ps.blocks) (by blocks) ?_
    exact Does.free (L' := ps.blocks) (by blocks) (PImgs.free_does ps)
theorem DImg.free_does : ∀ i : DImg, Gone i.free i.blocks
  | .leaf d n c => by
    simp only [DImg.free]
    refine Does.free (L' := d :: c.blocks) (by simp only [DImg.blocks]; blocks) ?_
    exact (CImg.free_does c).bind (R := [d]) (by blocks) (Does.freeLast (List.Perm.refl _))
  | .node d n c x y => by
    simp only [DImg.free]
    refine Does.free (L' := d :: (c.blocks ++ (x.blocks ++ y.blocks))) (by simp only [DImg.blocks]; blocks) ?_
    refine (CImg.free_does c).bind (R := d :: (x.blocks ++ y.blocks)) (by blocks) ?_
    refine (DImg.free_does x).bind (R := d :: y.blocks) (by blocks) ?_
    exact (DImg.free_does y).bind (R := [d]) (by blocks) (Does.freeLast (List.Perm.refl _))
end

/-! ### sequences of calls -/

mutual
theorem CImg.read_sub : ∀ (i : CImg) (b : Nat), b ∈ i.read → b ∈ i.blocks
  | .mk c l arr pd ps, b, h => by
    have ih := PImgs.read_sub ps b
    simp only [CImg.read, CImg.blocks, List.mem_cons, List.mem_append] at h ⊢
    rcases h with h | h | h | h | h
    · exact .inl h
    · exact .inr (.inl h)
    · exact .inr (.inr (.inl h))
    · cases pd with
      | none => cases h
      | some p => exact .inr (.inr (.inr (.inl h)))
    · exact .inr (.inr (.inr (.inr (ih h))))
theorem PImgs.read_sub : ∀ (i : PImgs) (b : Nat), b ∈ i.read → b ∈ i.blocks
  | .nil, _, h => h
  | .cons p n d rest, b, h => by
    have h1 := DImg.read_sub d b
    have h2 := PImgs.read_sub rest b
    simp only [PImgs.read, PImgs.blocks, List.mem_cons, List.mem_append] at h ⊢
    tauto
theorem DImg.read_sub : ∀ (i : DImg) (b : Nat), b ∈ i.read → b ∈ i.blocks
  | .leaf d n c, b, h => by
    have h1 := CImg.read_sub c b
    simp only [DImg.read, DImg.blocks, List.mem_cons] at h ⊢
    tauto
  | .node d n c x y, b, h => by
    have h1 := CImg.read_sub c b
    have h2 := DImg.read_sub x b
    have h3 := DImg.read_sub y b
    simp only [DImg.read, DImg.blocks, List.mem_cons, List.mem_append] at h ⊢
    tauto
end

theorem makeSubText_root {t t' : Tree} {id : Nat} {cs : List Constant} {text : Str} {so : Option Sub}
    (h : t.makeSubText id cs text = .ok (so, t')) : t'.root = t.root := by
  simp only [Tree.makeSubText, Tree.makeSub] at h
  repeat' split at h
  all_goals first | (cases h; done) | (cases h; rfl)

theorem changeBoundariesText_root {t t' : Tree} {text : Str} {b : Bool} (h : t.changeBoundariesText text = .ok (b, t')) : t'.root = t.root := by
  simp only [Tree.changeBoundariesText, Tree.changeBoundaries] at h
  repeat' split at h
  all_goals first | (cases h; done) | skip
  all_goals (cases h; try rfl)
  all_goals (rename_i h1; repeat' split at h1)
  all_goals first | (cases h1; done) | (cases h1; rfl)

/-- the world is this one, and its nodes are exactly these blocks -/
def LeavesW (t : TextWorld) (w : NodeWorld) (M : List Nat) : Prop := w.world = t ∧ M = w.root.blocks ∧ CImg.Fits t.tree.root w.root

theorem nodeStep_does {R : Rounding} {w : NodeWorld} {o : MemOp} {t : TextWorld} (hf : CImg.Fits w.world.tree.root w.root)
    (h : w.world.plainStep R o = .ok t) : Does (w.step R o) w.root.blocks (LeavesW t) := by
  have hr : Does (touchAll w.root.read) w.root.blocks (fun _ M => M = w.root.blocks) := touchAll_does fun b hb => CImg.read_sub _ b hb
  obtain ⟨w, i⟩ := w
  cases o with
  | search =>
    cases h
    exact Does.then hr (Does.pure (.refl _) ⟨rfl, rfl, hf⟩)
  | empty =>
    cases h
    simp only [NodeWorld.step, NodeWorld.empty]
    refine Does.seq (P := i.blocks) (L' := []) (by simp) (CImg.free_does i) fun _ M hM => ?_
    subst hM
    refine makeCNodeMem_does fun c l => Does.pure (L' := [c, l]) (by blocks) ⟨rfl, rfl, ?_⟩
    exact ⟨by simp, by simp, trivial⟩
  | call o =>
    cases o with
    | makeSub q =>
      have h' := h
      simp only [TextWorld.plainStep] at h
      refine Does.lift h (Does.pure (.refl _) ⟨rfl, rfl, ?_⟩)
      simp only [TextWorld.step] at h
      split at h
      · cases h
      · rename_i s t' hm
        cases h
        have := makeSubText_root hm
        dsimp only at this ⊢
        rw [this]; exact hf
      · rename_i t' hm
        cases h
        have := makeSubText_root hm
        dsimp only at this ⊢
        rw [this]; exact hf
    | changeBoundaries text =>
      simp only [TextWorld.plainStep] at h
      refine Does.lift h (Does.pure (.refl _) ⟨rfl, rfl, ?_⟩)
      simp only [TextWorld.step] at h
      split at h
      · cases h
      · rename_i b t' hm
        cases h
        have := changeBoundariesText_root hm
        dsimp only at this ⊢
        rw [this]; exact hf
    | insertSub k =>
      refine Does.then hr ?_
      simp only [TextWorld.plainStep, TextWorld.step] at h
      simp only [NodeWorld.insertSub]
      cases hk : w.pool[k]? with
      | none =>
        rw [hk] at h
        cases h
        exact Does.pure (.refl _) ⟨rfl, rfl, hf⟩
      | some p =>
        obtain ⟨q, s⟩ := p
        rw [hk] at h
        dsimp only at h ⊢
        simp only [Tree.insertSub] at h
        cases hi : w.tree.root.insert R w.tree.cfg s with
        | error e => rw [hi] at h; cases h
        | ok c' =>
          rw [hi] at h
          cases h
          refine Does.seq (P := i.blocks) (L' := []) (by simp) (CNode.insertMem_does R w.tree.cfg s hf hi) ?_
          rintro ⟨c1, c2⟩ M ⟨rfl, rfl, g⟩
          exact Does.pure (by simp) ⟨rfl, rfl, g⟩
    | insert q =>
      refine Does.then hr ?_
      simp only [TextWorld.plainStep, TextWorld.step, Tree.insertText] at h
      simp only [NodeWorld.insert]
      cases hp : parseText q.text with
      | error e => rw [hp] at h; cases h
      | ok r =>
        rw [hp] at h
        refine Does.lift rfl ?_
        cases r with
        | none => cases h; exact Does.pure (.refl _) ⟨rfl, rfl, hf⟩
        | some e =>
          dsimp only at h ⊢
          simp only [Tree.insert] at h
          cases hq : prepareInsert w.tree.cfg q.id q.consts e with
          | error e => rw [hq] at h; cases h
          | ok r =>
            obtain ⟨so, cfg⟩ := r
            rw [hq] at h
            refine Does.lift rfl ?_
            cases so with
            | none => cases h; exact Does.pure (.refl _) ⟨rfl, rfl, hf⟩
            | some s =>
              dsimp only at h ⊢
              cases hi : w.tree.root.insert R cfg s with
              | error e => rw [hi] at h; cases h
              | ok c' =>
                rw [hi] at h
                cases h
                refine Does.seq (P := i.blocks) (L' := []) (by simp) (CNode.insertMem_does R cfg s hf hi) ?_
                rintro ⟨c1, c2⟩ M ⟨rfl, rfl, g⟩
                exact Does.pure (by simp) ⟨rfl, rfl, g⟩

theorem nodeRun_does {R : Rounding} (os : List MemOp) : ∀ {w : NodeWorld} {t : TextWorld}, CImg.Fits w.world.tree.root w.root →
    w.world.plainRun R os = .ok t → Does (w.run R os) w.root.blocks (LeavesW t) := by
  induction os with
  | nil =>
    intro w t hf h
    cases h
    exact Does.pure (.refl _) ⟨rfl, rfl, hf⟩
  | cons o os ih =>
    intro w t hf h
    simp only [TextWorld.plainRun] at h
    cases hs : w.world.plainStep R o with
    | error x => rw [hs] at h; cases h
    | ok t1 =>
      rw [hs] at h
      refine Does.seq (P := w.root.blocks) (L' := []) (by simp) (nodeStep_does hf hs) ?_
      rintro w1 M ⟨rfl, rfl, g⟩
      rw [List.append_nil]
      exact ih g h

end BeTree
