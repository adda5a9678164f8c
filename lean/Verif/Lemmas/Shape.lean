import Verif.Lemmas.WorldPrune
import Verif.Spec.Place
/-
The shape of the tree: a partition holds cdirs of its own variable, and no cdir is wide.
-/
namespace BeTree
open Spec
variable [Floats]

/-- how many values an interval has, less one (floats are not counted) -/
def Bound.width (b : Bound) : Nat :=
  match b.lo, b.hi with
  | .i lo, .i hi => (hi - lo).toNat
  | .s lo, .s hi => hi - lo
  | .b lo, .b hi => if lo = hi then 0 else 1
  | _, _ => 0

/-- a range of floats that can be cut down to single numbers -/
def Bound.Fine (b : Bound) : Prop := ∀ x y, b.lo = .f x → b.hi = .f y → CutsUp 999 x y

mutual
/-- shape of a cnode; the float attributes of `P` are cut down to single numbers -/
def CNode.Sh (P : Nat → Prop) : CNode → Prop
  | .mk _ _ pns => pns.Sh P
/-- shape of the partitions -/
def PNodes.Sh (P : Nat → Prop) : PNodes → Prop
  | .nil => True
  | .cons v _ cd rest => cd.var = v ∧ cd.Sh P ∧ rest.Sh P
/-- shape of a cdir -/
def CDir.Sh (P : Nat → Prop) : CDir → Prop
  | .leaf v b c => (b.width < maxDomainForSplit ∧ (P v → b.Fine)) ∧ c.Sh P
  | .node v b c l r => (b.width < maxDomainForSplit ∧ (P v → b.Fine)) ∧ c.Sh P ∧ l.Sh P ∧ r.Sh P
end

omit [Floats] in
theorem cutsUp_mono {n k : Nat} {a b : Rat} (h : CutsUp n a b) (hk : n ≤ k) : CutsUp k a b := by
  induction h generalizing k with
  | point h => exact .point h
  | cut hc _ _ ih1 ih2 =>
    obtain ⟨j, rfl⟩ : ∃ j, k = j + 1 := ⟨k - 1, by omega⟩
    exact .cut hc (ih1 (by omega)) (ih2 (by omega))

omit [Floats] in
/-- the parts of a range that can be cut up can be cut up -/
theorem split_fine {n : Nat} {b bl br : Bound} (hle : b.lo.le b.hi = true) (ha : isAtomic b = .ok false)
    (hb : ∀ x y, b.lo = .f x → b.hi = .f y → CutsUp n x y) (h : splitBound b = .ok (bl, br)) {x y : Rat} (hx : b.lo = .f x) (hy : b.hi = .f y) :
    ∃ k, n = k + 1 ∧ (∀ x y, bl.lo = .f x → bl.hi = .f y → CutsUp k x y) ∧ (∀ x y, br.lo = .f x → br.hi = .f y → CutsUp k x y) := by
  have h1 : b.ty ≠ .segments := by intro e; unfold splitBound at h; rw [e] at h; cases h
  have h2 : b.ty ≠ .freq := by intro e; unfold splitBound at h; rw [e] at h; cases h
  have hh := hb x y hx hy
  obtain ⟨ty, lo, hi⟩ := b
  dsimp only at h1 h2 hx hy
  subst hx; subst hy
  rw [splitBound_float h1 h2] at h
  cases hh with
  | point hp =>
    exfalso
    unfold isAtomic at ha
    cases ty <;> simp [feq, hp] at ha h1 h2
  | @cut k _ _ m m' hc hl hr =>
    rw [hc] at h
    simp only [Except.ok.injEq, Prod.mk.injEq] at h
    obtain ⟨rfl, rfl⟩ := h
    refine ⟨k, rfl, ?_, ?_⟩
    · intro a b ha hb; cases ha; cases hb; exact hl
    · intro a b ha hb; cases ha; cases hb; exact hr

omit [Floats] in
theorem split_fine' {b bl br : Bound} (hle : b.lo.le b.hi = true) (hsz : ∀ n, b.hi = .s n → n < 2 ^ 64) (hfl : b.Halved) (ha : isAtomic b = .ok false) (hb : b.Fine)
    (h : splitBound b = .ok (bl, br)) : bl.Fine ∧ br.Fine := by
  obtain ⟨t1, t2, e1, e2, l1, l2, -⟩ := split_shape hle hsz hfl h
  cases hlo : b.lo with
  | f x =>
    cases hhi : b.hi with
    | f y =>
      obtain ⟨k, hk, f1, f2⟩ := split_fine hle ha hb h hlo hhi
      exact ⟨fun x y hx hy => cutsUp_mono (f1 x y hx hy) (by omega), fun x y hx hy => cutsUp_mono (f2 x y hx hy) (by omega)⟩
    | _ => rw [hlo, hhi] at hle; cases hle
  | _ =>
    rw [hlo] at hle e1
    constructor
    · intro x y hx; rw [e1] at hx; cases hx
    · intro x y hx hy
      rw [e2] at hy
      rw [hy] at hle; cases hle

/-- the limits of the attributes of `P` can be cut up -/
def FineDoms (P : Nat → Prop) (cfg : Config) : Prop :=
  ∀ j d, P j → cfg.domains[j]? = some d → splitable d.bound = .ok true → d.bound.Fine

omit [Floats] in
theorem fineDoms_none {cfg : Config} : FineDoms (fun _ => False) cfg := fun _ _ h => h.elim

omit [Floats] in
theorem snoc_sh {P : Nat → Prop} {pns : PNodes} {v : Nat} {sc : Rat} {cd : CDir} (h : pns.Sh P) (hv : cd.var = v) (hc : cd.Sh P) :
    (pns.snoc v sc cd).Sh P := by
  induction pns using PNodes.rec (motive_1 := fun _ => True) (motive_3 := fun _ => True) with
  | nil => simp only [PNodes.snoc, PNodes.Sh]; exact ⟨hv, hc, trivial⟩
  | cons v' s' c' rest _ ih =>
    simp only [PNodes.snoc, PNodes.Sh] at h ⊢
    exact ⟨h.1, h.2.1, ih h.2.2⟩
  | _ => trivial

theorem splitable_width {b : Bound} (hok : BoundOK b) (h : splitable b = .ok true) : b.width < maxDomainForSplit := by
  obtain ⟨ty, lo, hi⟩ := b
  have hint : ∀ {a c : Int}, a ≤ c → (if a = int64Min ∨ c = int64Max then Except.ok false
      else (intDiff a c).map fun d => decide (d < maxDomainForSplit)) = Except.ok true → (c - a).toNat < maxDomainForSplit := by
    intro a c hac h
    split at h
    · cases h
    · unfold intDiff checkedInt at h
      split at h
      · cases h
      · rename_i z hz
        split at hz <;> cases hz
        split at h
        · cases h
        · simp only [Except.map, Except.ok.injEq, decide_eq_true_eq] at h
          omega
  have hsz : ∀ {c : Nat}, c < sizeMax → (if c = sizeMax then Except.ok (ε := Fault) false
      else .ok (decide ((c + (2 ^ 64 - 0 % 2 ^ 64)) % 2 ^ 64 < maxDomainForSplit))) = Except.ok true → c - 0 < maxDomainForSplit := by
    intro c hc h
    split at h
    · cases h
    · simp only [Except.ok.injEq, decide_eq_true_eq] at h
      simp only [sizeMax, maxDomainForSplit] at *
      omega
  cases ty <;> simp only [BoundOK] at hok
  · obtain ⟨rfl, rfl⟩ := hok; simp [Bound.width, maxDomainForSplit]
  · obtain ⟨a, c, rfl, rfl, h1⟩ := hok; exact hint h1 h
  · obtain ⟨a, c, rfl, rfl, _⟩ := hok; simp [Bound.width, maxDomainForSplit]
  · obtain ⟨c, rfl, rfl, hc⟩ := hok; exact hsz hc h
  · obtain ⟨a, c, rfl, rfl, h1⟩ := hok; exact hint h1 h
  · obtain ⟨c, rfl, rfl, hc⟩ := hok; exact hsz hc h
  · simp [splitable] at h
  · simp [splitable] at h
  · obtain ⟨c, rfl, rfl, hc⟩ := hok; exact hsz hc h

omit [Floats] in
/-- a smaller interval has a smaller width -/
theorem width_mono {a b : Bound} (h1 : b.lo.le a.lo = true) (h2 : a.lo.le a.hi = true) (h3 : a.hi.le b.hi = true) :
    a.width ≤ b.width := by
  obtain ⟨_, alo, ahi⟩ := a
  obtain ⟨_, blo, bhi⟩ := b
  cases alo <;> cases ahi <;> cases blo <;> cases bhi <;> simp only [Scalar.le, Bool.false_eq_true, decide_eq_true_eq] at h1 h2 h3 <;>
    simp only [Bound.width, Nat.le_refl] <;> try omega
  rename_i a b c d
  cases a <;> cases b <;> cases c <;> cases d <;> simp_all

theorem BInv.size {cfg : Config} {v : Nat} {b : Bound} {ol or : Bool} {d : Domain} (h : BInv cfg v b ol or d) :
    ∀ n, b.hi = .s n → n < 2 ^ 64 := by
  intro n hn
  have h1 := h.dhi
  have h2 := h.dom.ok
  rw [hn] at h1
  obtain ⟨a, ⟨ty, lo, hi⟩, u⟩ := d
  cases ty <;> simp only [BoundOK] at h2
  · obtain ⟨rfl, rfl⟩ := h2; simp [Scalar.le] at h1
  · obtain ⟨_, _, rfl, rfl, _⟩ := h2; simp [Scalar.le] at h1
  · obtain ⟨_, _, rfl, rfl, _⟩ := h2; simp [Scalar.le] at h1
  · obtain ⟨_, rfl, rfl, _⟩ := h2; simp [Scalar.le] at h1; simp only [sizeMax] at *; omega
  · obtain ⟨_, _, rfl, rfl, _⟩ := h2; simp [Scalar.le] at h1
  · obtain ⟨_, rfl, rfl, _⟩ := h2; simp [Scalar.le] at h1; simp only [sizeMax] at *; omega
  · obtain ⟨rfl, rfl⟩ := h2; simp [Scalar.le] at h1; omega
  · obtain ⟨rfl, rfl⟩ := h2; simp [Scalar.le] at h1; omega
  · obtain ⟨_, rfl, rfl, _⟩ := h2; simp [Scalar.le] at h1; simp only [sizeMax] at *; omega

theorem restructure_sh (R : Rounding) (cfg : Config) (hcfg : DomsOK cfg) {P : Nat → Prop} (hP : FineDoms P cfg) (fuel : Nat) :
    (∀ used subs max pns c, pns.Sh P → partition R cfg fuel used subs max pns = .ok c → c.Sh P) ∧
    (∀ used ol or d cd cd', cd.Sh P → BInv cfg cd.var cd.bound ol or d → cluster R cfg fuel used cd = .ok cd' →
      cd'.Sh P ∧ cd'.var = cd.var) := by
  induction fuel with
  | zero => constructor <;> intros <;> rename_i h <;> simp [partition, cluster] at h
  | succ fuel ih =>
    obtain ⟨ihp, ihc⟩ := ih
    have fin : ∀ {subs : List Sub} {pns : PNodes} {c : CNode}, pns.Sh P → finishPartition cfg subs pns = .ok c → c.Sh P := by
      intro subs pns c hp h
      obtain ⟨m, rfl⟩ := finishPartition_ok h
      simp only [CNode.Sh]; exact hp
    constructor
    · intro used subs max pns c hp h
      simp only [partition] at h
      split at h
      · split at h
        · cases h
        · exact fin hp h
        · rename_i v hv
          split at h
          · exact fin hp h
          · split at h
            · cases h
            · rename_i d hd
              split at h
              · cases h
              · rename_i kept moved hm
                split at h
                · cases h
                · rename_i cdir hcl
                  obtain ⟨d', hd', hsp⟩ := nextHighest_splitable hv
                  have : d' = d := by
                    unfold getDomain at hd
                    rw [hd'] at hd; cases hd; rfl
                  subst this
                  have hda := hcfg v d' hd'
                  have hlim := splitable_limited hda.ok hsp
                  have hleaf : (CDir.leaf v d'.bound (.mk (moved.map (·.2)) cfg.lnodeMaxCap .nil)).Sh P := by
                    simp only [CDir.Sh, CNode.Sh, PNodes.Sh]
                    exact ⟨⟨splitable_width hda.ok hsp, fun hp => hP v d' hp hd' hsp⟩, trivial⟩
                  obtain ⟨c1, c2⟩ := ihc _ _ _ _ _ _ hleaf (BInv.root hda hlim) hcl
                  exact ihp _ _ _ _ _ (snoc_sh hp c2 c1) h
      · exact fin hp h
    · intro used ol or d cd cd' hp hb h
      cases cd with
      | node v b c l r =>
        obtain ⟨subs, max, pns⟩ := c
        simp only [cluster] at h
        split at h
        · split at h
          · cases h
          · rename_i cn hcn
            cases h
            simp only [CDir.Sh, CNode.Sh] at hp
            obtain ⟨p1, p2, p3⟩ := hp
            exact ⟨by simp only [CDir.Sh]; exact ⟨p1, ihp _ _ _ _ _ p2 hcn, p3⟩, rfl⟩
        · cases h; exact ⟨hp, rfl⟩
      | leaf v b c =>
        obtain ⟨subs, max, pns⟩ := c
        simp only [cluster] at h
        split at h
        · split at h
          · cases h
          · split at h
            · cases h
            · rename_i cn hcn
              cases h
              simp only [CDir.Sh, CNode.Sh] at hp
              exact ⟨by simp only [CDir.Sh]; exact ⟨hp.1, ihp _ _ _ _ _ hp.2 hcn⟩, rfl⟩
          · rename_i hat
            split at h
            · cases h
            · rename_i bl br hsplit
              split at h
              · cases h
              · rename_i kept moved hm
                split at h
                · cases h
                · rename_i cn hcn
                  split at h
                  · cases h
                  · rename_i l hl
                    split at h
                    · cases h
                    · rename_i r hr
                      cases h
                      simp only [CDir.Sh, CNode.Sh] at hp
                      obtain ⟨p1, p2⟩ := hp
                      obtain ⟨bl1, br1⟩ := hb.split hsplit
                      have hs := split_shape hb.lohi hb.size hb.halved hsplit
                      obtain ⟨s1, s2, s3, s4, s5, s6, s7, s8, s9, s10⟩ := hs
                      have wl : bl.width < maxDomainForSplit :=
                        Nat.lt_of_le_of_lt (width_mono (b := b) (by rw [s3]; exact Scalar.le_refl _) s5 s10) p1.1
                      have wr : br.width < maxDomainForSplit :=
                        Nat.lt_of_le_of_lt (width_mono (b := b) s9 s6 (by rw [s4]; exact Scalar.le_refl _)) p1.1
                      have hleaf : (CDir.leaf v bl (.mk (movedTo true moved) cfg.lnodeMaxCap .nil)).Sh P := by
                        simp only [CDir.Sh, CNode.Sh, PNodes.Sh]; exact ⟨⟨wl, fun hp => (split_fine' hb.lohi hb.size hb.halved hat (p1.2 hp) hsplit).1⟩, trivial⟩
                      have hreaf : (CDir.leaf v br (.mk (movedTo false moved) cfg.lnodeMaxCap .nil)).Sh P := by
                        simp only [CDir.Sh, CNode.Sh, PNodes.Sh]; exact ⟨⟨wr, fun hp => (split_fine' hb.lohi hb.size hb.halved hat (p1.2 hp) hsplit).2⟩, trivial⟩
                      refine ⟨?_, rfl⟩
                      simp only [CDir.Sh]
                      exact ⟨p1, ihp _ _ _ _ _ p2 hcn, (ihc _ _ _ _ _ _ hleaf bl1 hl).1, (ihc _ _ _ _ _ _ hreaf br1 hr).1⟩
        · cases h; exact ⟨hp, rfl⟩

mutual
theorem PNodes.insert_sh {R : Rounding} {cfg : Config} (hcfg : DomsOK cfg) {P : Nat → Prop} (hP : FineDoms P cfg) {fuel : Nat} {used : List Nat} {v : Nat} {s : Sub} :
    ∀ {pns pns' : PNodes}, pns.Pr cfg → pns.Sh P → pns.insert R cfg fuel used v s = .ok pns' → pns'.Sh P
  | .nil, pns', _, _, h => by simp [PNodes.insert] at h
  | .cons v' sc cd rest, pns', hr, hp, h => by
    simp only [PNodes.insert] at h
    simp only [PNodes.Sh] at hp
    simp only [PNodes.Pr] at hr
    split at h
    · split at h
      · cases h
      · rename_i cd' hcd
        split at h
        · cases h
        · cases h
          obtain ⟨h1, h2⟩ := CDir.insert_sh hcfg hP hr.1 hp.2.1 hcd
          simp only [PNodes.Sh]
          exact ⟨h2.trans hp.1, h1, hp.2.2⟩
    · split at h
      · cases h
      · rename_i rest' hrest
        cases h
        simp only [PNodes.Sh]
        exact ⟨hp.1, hp.2.1, PNodes.insert_sh hcfg hP hr.2 hp.2.2 hrest⟩

theorem CDir.insert_sh {R : Rounding} {cfg : Config} (hcfg : DomsOK cfg) {P : Nat → Prop} (hP : FineDoms P cfg) {fuel : Nat} {used : List Nat} {s : Sub} :
    ∀ {ol or : Bool} {cd cd' : CDir}, cd.Pr cfg ol or → cd.Sh P → cd.insert R cfg fuel used s = .ok cd' →
      cd'.Sh P ∧ cd'.var = cd.var
  | ol, or, .leaf v b (.mk subs max pns), cd', hr, hp, h => by
    simp only [CDir.insert] at h
    obtain ⟨d, hd⟩ := hr.inv
    split at h
    · have hp' : (CDir.leaf v b (.mk (subs ++ [s]) max pns)).Sh P := by
        simpa only [CDir.Sh, CNode.Sh] using hp
      exact (restructure_sh R cfg hcfg hP fuel).2 _ _ _ _ (.leaf v b (.mk (subs ++ [s]) max pns)) _ hp' hd h
    · split at h
      · cases h
      · rename_i pns' hpn
        cases h
        simp only [CDir.Sh, CNode.Sh] at hp ⊢
        simp only [CDir.Pr, CNode.Pr] at hr
        exact ⟨⟨hp.1, PNodes.insert_sh hcfg hP hr.2 hp.2 hpn⟩, rfl⟩
  | ol, or, .node v b (.mk subs max pns) l r, cd', hr, hp, h => by
    have hp0 := hp
    obtain ⟨d, hd⟩ := hr.inv
    simp only [CDir.Sh, CNode.Sh] at hp
    simp only [CDir.Pr, CNode.Pr] at hr
    obtain ⟨hb, hc, hl1, hr1, hl2, hr2, hl3, hr3⟩ := hr
    simp only [CDir.insert] at h
    split at h
    · cases h
    · split at h
      · cases h
      · rename_i l' hl
        cases h
        simp only [CDir.Sh, CNode.Sh]
        exact ⟨⟨hp.1, hp.2.1, (CDir.insert_sh hcfg hP hl2 hp.2.2.1 hl).1, hp.2.2.2⟩, rfl⟩
    · split at h
      · cases h
      · split at h
        · cases h
        · rename_i r' hr
          cases h
          simp only [CDir.Sh, CNode.Sh]
          exact ⟨⟨hp.1, hp.2.1, hp.2.2.1, (CDir.insert_sh hcfg hP hr2 hp.2.2.2 hr).1⟩, rfl⟩
      · split at h
        · have hp' : (CDir.node v b (.mk (subs ++ [s]) max pns) l r).Sh P := by
            simpa only [CDir.Sh, CNode.Sh] using hp0
          exact (restructure_sh R cfg hcfg hP fuel).2 _ _ _ _ (.node v b (.mk (subs ++ [s]) max pns) l r) _ hp' hd h
        · split at h
          · cases h
          · rename_i pns' hpn
            cases h
            simp only [CDir.Sh, CNode.Sh]
            exact ⟨⟨hp.1, PNodes.insert_sh hcfg hP hc hp.2.1 hpn, hp.2.2⟩, rfl⟩
end

theorem CNode.insert_sh {R : Rounding} {cfg : Config} (hcfg : DomsOK cfg) {P : Nat → Prop} (hP : FineDoms P cfg) {s : Sub} {c c' : CNode} (hr : c.Pr cfg) (hp : c.Sh P)
    (h : c.insert R cfg s = .ok c') : c'.Sh P := by
  obtain ⟨subs, max, pns⟩ := c
  simp only [CNode.insert] at h
  simp only [CNode.Sh] at hp
  simp only [CNode.Pr] at hr
  split at h
  · exact (restructure_sh R cfg hcfg hP _).1 _ _ _ _ _ hp h
  · split at h
    · cases h
    · rename_i pns' hpn
      cases h
      simp only [CNode.Sh]
      exact PNodes.insert_sh hcfg hP hr hp hpn


omit [Floats] in
theorem makeSub_root {t t' : Tree} {id : Nat} {cs : List Constant} {e : Expr} {r : Option Sub}
    (h : t.makeSub id cs e = .ok (r, t')) : t'.root = t.root := by
  unfold Tree.makeSub at h
  dsimp only at h
  repeat' split at h
  all_goals first
    | (cases h; done)
    | (cases h; rfl)

theorem step_sh {R : Rounding} {w w' : World} {o : Op} (hp : PruneOK w) {P : Nat → Prop} (hP : FineDoms P w.tree.cfg) (hP' : FineDoms P w'.tree.cfg) (hsh : w.tree.root.Sh P) (h : w.step R o = .ok w') :
    w'.tree.root.Sh P := by
  cases o with
  | insert q =>
    have key : ∀ {b : Bool} {t : Tree}, w.tree.insert R q.id q.consts (parseBuild q.expr) = .ok (b, t) → FineDoms P t.cfg → t.root.Sh P := by
      intro b t h1 hP2
      unfold Tree.insert at h1
      split at h1
      · cases h1
      · cases h1; exact hsh
      · rename_i h2
        split at h1
        · cases h1
        · rename_i h3
          cases h1
          obtain ⟨c, wd⟩ := prepareInsert_cfgOK hp.cfg h2
          exact CNode.insert_sh c.doms hP2 (hp.root.wider wd) hsh h3
    simp only [World.step] at h
    split at h
    · cases h
    · rename_i h1; cases h; exact key h1 hP'
    · rename_i h1; cases h; exact key h1 hP'
  | makeSub q =>
    simp only [World.step] at h
    split at h
    · cases h
    · rename_i h1; cases h; dsimp only; rw [makeSub_root h1]; exact hsh
    · rename_i h1; cases h; dsimp only; rw [makeSub_root h1]; exact hsh
  | insertSub k =>
    simp only [World.step] at h
    split at h
    · cases h; exact hsh
    · split at h
      · cases h
      · rename_i h1
        cases h
        unfold Tree.insertSub at h1
        split at h1
        · cases h1
        · rename_i h2
          cases h1
          exact CNode.insert_sh hp.cfg.doms hP hp.root hsh h2
  | changeBoundaries e =>
    simp only [World.step] at h
    split at h
    · cases h
    · rename_i h1; cases h; dsimp only; rw [changeBoundaries_root h1]; exact hsh

theorem run_sh {R : Rounding} : ∀ {ops : List Op} {w w' : World}, PruneOK w → TablesOK w.tree.cfg → Small w'.tree.cfg →
    w.tree.root.Sh (fun _ => False) → (∀ o ∈ ops, ModerateOp o) → w.run R ops = .ok w' → w'.tree.root.Sh (fun _ => False) := by
  intro ops
  induction ops with
  | nil => intro w w' hp _ _ hsh _ h; cases h; exact hsh
  | cons o os ih =>
    intro w w' hp ht hs hsh hm h
    simp only [World.run] at h
    split at h
    · cases h
    · rename_i w1 h1
      obtain ⟨p1, _⟩ := step_prune hp ht (Small.of_ext (run_ext h) hs) (hm o List.mem_cons_self) h1
      exact ih p1 ((step_ext h1).ok ht) hs (step_sh hp fineDoms_none fineDoms_none hsh h1) (fun o ho => hm o (List.mem_cons_of_mem _ ho)) h

omit [Floats] in
theorem init_sh (P : Nat → Prop) (cap min : Nat) (decls : List (Str × Decl × Bool)) : (World.init (makeTree cap min decls)).tree.root.Sh P := by
  simp only [World.init, makeTree, emptyCNode, CNode.Sh, PNodes.Sh]

end BeTree
