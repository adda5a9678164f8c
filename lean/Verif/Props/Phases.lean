import Verif.Lemmas.Phases
import Verif.Props.Use
/-
C67: programs that change the tree, let threads search it, change it again, and so on.
-/
namespace BeTree
open Spec

/-- nothing is lost on the way: the conditions of C63 and C65 for all parts of the program -/
structure Lossless (R : Rounding) (w t : TextWorld) (ps : List Phase) (outs : List (List Answer × List (EventPlain × List Answer))) : Prop where
  tidy : Tidy (phaseOps ps)
  threads : ∀ p ∈ ps, ∀ os ∈ p.calls, Tidy os
  clean : ∀ o ∈ treeOps (userOps (phaseOps ps)), Clean o
  used : ∀ k < t.pool.length, k ∈ doneIn R w (treeOps (userOps (phaseOps ps)))
  answered : ∀ x ∈ outs, (∀ a ∈ x.1, Answered a) ∧ ∀ a ∈ x.2, ∀ y ∈ a.2, Answered y

/-- C67: a program in any number of parts.  In each part, one thread makes any calls, among them those that change the tree; then any number of
threads make any calls that do not, and the program waits for them.  If all these calls go well when they are made one after the other, without
memory, then the program goes well in every interleaving of all its parts, with the same answers: `Goes`. -/
theorem C67_phases (H : Str → Nat) (geo : GeoTest) (R : Rounding) (cap min : Nat) (decls : List (Str × Decl × Bool)) (ps : List Phase)
    (t : EventPlain) (outs : List (List Answer × List (EventPlain × List Answer))) (h : Heap) (hh : Holds h h.live)
    (hlim : ∀ d ∈ decls, d.2.1.LimitNonzero)
    (hrun : (EventPlain.mk (TextWorld.init (makeTree cap min decls)) []).phases geo R ps = .ok (t, outs)) (hfit : t.world.tree.cfg.TablesFit)
    (hids : (newIds (treeOps (userOps (phaseOps ps)))).Nodup) (honce : (insertedSubs (treeOps (userOps (phaseOps ps)))).Nodup)
    (hreads : ∀ p ∈ ps, ∀ os ∈ p.calls, ∀ o ∈ os, o.Reads) :
    ∃ s0 h0, Session.init cap min decls h = .ok (s0, h0) ∧
      Goes H geo R h (Lossless R (TextWorld.init (makeTree cap min decls)) t.world ps outs) s0 h0 ps outs := by
  have hw : Owned (MemWorld.init (makeTree cap min decls)) [] [] [] [] := by
    refine ⟨.refl _, List.nodup_nil, ?_, by simp [MemWorld.init], by simp [MemWorld.init, TextWorld.init],
      by simp [MemWorld.init, TextWorld.init], by simp, by simp⟩
    simp [MemWorld.init, TextWorld.init, makeTree, emptyCNode, CNode.contents, PNodes.contents]
  have ha : Ahead (MemWorld.init (makeTree cap min decls)) [] (treeOps (userOps (phaseOps ps))) :=
    ⟨hids, by simp [MemWorld.init], honce, by simp [MemWorld.init, TextWorld.init]⟩
  obtain ⟨s0, h0, M0, e0, ⟨g1, g2, g3⟩, hh0⟩ := Does.run (sessionInit_does H cap min decls) h h.live hh
  have hh0' : Holds h0 (Objs.flat ([] ++ []) ++ (heldBlocks s0.subs.objs ++ []) ++ s0.rest ++ h.live) :=
    hh0.perm (by rw [g1]; simpa [Objs.flat] using g3.append_right _)
  obtain ⟨i1, i2⟩ := makeTree_filled (cap := cap) (min := min) hlim
  have hfilled := plainRun_filled _ (eventRun_plain _ (phases_run ps hrun)) i1 i2 hfit
  refine ⟨s0, h0, e0, goes ps g2 (by rw [g1]; exact hw) (by rw [g1]; intro o ho; cases ho) (by rw [g1]; exact ha) (by rw [g1]; exact hrun) hfilled
    hreads hh0' fun hc => ⟨rfl, hc.tidy.1, ?_, hc.clean, hc.tidy.2, fun x hx => (hc.answered x hx).1, hc.threads, fun x hx => (hc.answered x hx).2,
      fun k hk => .inr ?_⟩⟩
  · rw [g1]; intro x _ o ho; cases ho
  · rw [g1]; exact hc.used k hk

/-! ### exact answers -/

/-- the parts as programs -/
def asPhase (p : List TextOp × List (List EventOp)) : Phase := ⟨asCalls p.1, p.2⟩

theorem phaseOps_asPhase (parts : List (List TextOp × List (List EventOp))) :
    phaseOps (parts.map asPhase) = asCalls (parts.flatMap Prod.fst) := by
  induction parts with
  | nil => rfl
  | cons p ps ih => simpa [phaseOps, asCalls, asPhase] using ih

theorem textRun_append {R : Rounding} : ∀ (A B : List TextOp) {w w1 w2 : TextWorld}, w.run R A = .ok w1 → w.run R (A ++ B) = .ok w2 →
    w1.run R B = .ok w2 := by
  intro A
  induction A with
  | nil => intro B w w1 w2 h h'; cases h; exact h'
  | cons o A ih =>
    intro B w w1 w2 h h'
    simp only [List.cons_append, TextWorld.run] at h h'
    split at h
    · cases h
    · rename_i w3 h3
      rw [h3] at h'
      exact ih B h h'

theorem phases_right {geo : GeoTest} {R : Rounding} {decls : List (Str × Decl × Bool)} {Good : List EventVar → Prop} {w0 : TextWorld} {all : List TextOp}
    (hready : ∀ A B, all = A ++ B → ∃ tw, w0.run R A = .ok tw ∧ ∃ tqs, InTree A tqs ∧ Ready geo decls tqs Good tw) :
    ∀ (parts : List (List TextOp × List (List EventOp))) (pre : List TextOp) (tw : TextWorld), all = pre ++ parts.flatMap Prod.fst →
      w0.run R pre = .ok tw → (∀ p ∈ parts, ∀ os ∈ p.2, AllInOrder Good decls [] os) →
      ∃ t outs, (EventPlain.mk tw []).phases geo R (parts.map asPhase) = .ok (⟨t, []⟩, outs) ∧ w0.run R all = .ok t ∧ PartsRight geo decls pre parts outs := by
  intro parts
  induction parts with
  | nil =>
    intro pre tw hall hpre _
    refine ⟨tw, [], rfl, ?_, rfl⟩
    rw [hall]
    simpa using hpre
  | cons p ps ih =>
    intro pre tw hall hpre hin
    obtain ⟨tw1, k1, tqs, k2, k3⟩ := hready (pre ++ p.1) (ps.flatMap Prod.fst) (by rw [hall]; simp)
    obtain ⟨alone, a1, a2⟩ := alone_right (R := R) k3.exact k3.few k3.size p.2 (hin p (by simp))
    obtain ⟨t, outs, b1, b2, b3⟩ := ih (pre ++ p.1) tw1 (by rw [hall]; simp) k1 fun q hq => hin q (by simp [hq])
    refine ⟨t, ([], alone) :: outs, ?_, b2, tqs, alone, outs, rfl, k2, a2, b3⟩
    simp only [List.map_cons, EventPlain.phases, asPhase, asCalls_run (geo := geo) (textRun_append _ _ hpre k1), aloneRuns_iff.mpr a1]
    rw [b1]

theorem forall₂_split {α β : Type} {P : α → β → Prop} : ∀ {A B : List α} {l : List β}, List.Forall₂ P (A ++ B) l →
    ∃ l1 l2, l = l1 ++ l2 ∧ List.Forall₂ P A l1 ∧ List.Forall₂ P B l2 := by
  intro A
  induction A with
  | nil => intro B l h; exact ⟨[], l, rfl, .nil, h⟩
  | cons a A ih =>
    intro B l h
    cases h with
    | cons h1 h2 =>
      obtain ⟨l1, l2, rfl, k1, k2⟩ := ih h2
      exact ⟨_ :: l1, l2, rfl, .cons h1 k1, k2⟩

theorem inOrder_parts {Good : List EventVar → Prop} {decls : List (Str × Decl × Bool)} {parts : List (List TextOp × List (List EventOp))}
    (h : ∀ p ∈ parts, ∀ os ∈ p.2, AllInOrder Good decls [] os) : ∀ p ∈ parts.map asPhase, ∀ os ∈ p.calls, ∀ o ∈ os, o.Reads := by
  intro p hp os hos
  obtain ⟨x, hx, rfl⟩ := List.mem_map.mp hp
  exact inOrder_reads os (h x hx os hos)

/-- C67 with exact answers: make a tree with ordinary declarations; then, in any number of parts, build and insert subscriptions, widen limits and insert
requests plainly (the latter after the calls that teach the tree their constants), and let any number of threads ask, with texts and with events
that they make, fill and free.  All calls return, in every interleaving of every part; the threads of a part get exact answers for the requests
that are in the tree then; and at the end nothing is left allocated that was not before, if all built subscriptions were inserted, no entry of an
event or list was written twice and no search was refused. -/
theorem C67_exact_phases [F : Floats] (H : Str → Nat) (geo : GeoTest) (R : Rounding) (hR : Sane R) (cap min : Nat)
    (decls : List (Str × Decl × Bool)) (parts : List (List TextOp × List (List EventOp))) (ops : List Op)
    (hs : List.Forall₂ OpSays (parts.flatMap Prod.fst) ops)
    (hlen : ∀ o ∈ parts.flatMap Prod.fst, TextShorter 1990 o) (hcap : cap % 256 ≠ 0) (hd : ∀ d ∈ decls, OrdinaryDecl d)
    (hnames : (decls.map (·.1)).Nodup) (hsize : decls.length + opsConstants ops < 2 ^ 64 - 1)
    (ho : ∀ o ∈ ops, TrainedOp decls (makeTree cap min decls).cfg.domains o) (ht : TaughtFirst ops)
    (hids : ((placed ops).map Req.id).Nodup) (hnew : (newIds ((parts.flatMap Prod.fst).map .call)).Nodup)
    (honce : (insertedSubs ((parts.flatMap Prod.fst).map .call)).Nodup)
    (hin : ∀ p ∈ parts, ∀ os ∈ p.2, AllInOrder (fun ev => WellTyped (makeTree cap min decls).cfg.domains ev ∧ EventInRange ev) decls [] os)
    (h : Heap) (hh : Holds h h.live) :
    ∃ s0 h0 outs, Session.init cap min decls h = .ok (s0, h0) ∧ PartsRight geo decls [] parts outs ∧
      Goes H geo R h
        ((∀ p ∈ parts, ∀ os ∈ p.2, Tidy os) ∧ (∀ x ∈ outs, ∀ a ∈ x.2, ∀ y ∈ a.2, Answered y) ∧
          ∀ k < (built ops).length, k ∈ doneIn R (TextWorld.init (makeTree cap min decls)) ((parts.flatMap Prod.fst).map .call))
        s0 h0 (parts.map asPhase) outs := by
  have hready : ∀ A B, parts.flatMap Prod.fst = A ++ B → ∃ tw, (TextWorld.init (makeTree cap min decls)).run R A = .ok tw ∧ ∃ tqs, InTree A tqs ∧
      Ready geo decls tqs (fun ev => WellTyped (makeTree cap min decls).cfg.domains ev ∧ EventInRange ev) tw := by
    intro A B hAB
    rw [hAB] at hs hlen
    obtain ⟨o1, o2, rfl, s1, s2⟩ := forall₂_split hs
    rw [opsConstants_append] at hsize
    unfold placed at hids
    rw [placedFrom_append, List.map_append] at hids
    obtain ⟨tw, k1, k2, _, k3⟩ := taught_ready geo R hR cap min decls A o1 s1 (fun o ho => hlen o (by simp [ho])) hcap hd hnames (by omega)
      (fun o h => ho o (by simp [h])) (fun pre q post e => ht pre q (post ++ o2) (by rw [e]; simp)) (List.nodup_append.mp hids).1
    exact ⟨tw, k1, tw.live, ⟨o1, _, s1, k2, List.reverse_perm _⟩, k3⟩
  obtain ⟨t, outs, k1, k2, k3⟩ := phases_right hready parts [] _ rfl rfl hin
  obtain ⟨tw, b1, b2, b3, b4⟩ := taught_ready geo R hR cap min decls _ ops hs hlen hcap hd hnames hsize ho ht hids
  rw [k2] at b1; cases b1
  have e : treeOps (userOps (phaseOps (parts.map asPhase))) = (parts.flatMap Prod.fst).map .call := by rw [phaseOps_asPhase, asCalls_ops]
  obtain ⟨s0, h0, e0, hg⟩ := C67_phases H geo R cap min decls (parts.map asPhase) ⟨t, []⟩ outs h hh (limits_nonzero hd) k1 b4.fit (by rw [e]; exact hnew)
    (by rw [e]; exact honce) (inOrder_parts hin)
  refine ⟨s0, h0, outs, e0, k3, hg.mono ?_⟩
  rintro ⟨c1, c2, c3⟩
  refine ⟨by rw [phaseOps_asPhase]; exact asCalls_tidy _, ?_, by rw [e]; exact texts_clean hs hlen ho, ?_, fun x hx => ⟨?_, c2 x hx⟩⟩
  · intro p hp
    obtain ⟨x, hx, rfl⟩ := List.mem_map.mp hp
    exact c1 x hx
  · intro k hk
    rw [e]
    exact c3 k (by rw [← b3]; exact hk)
  · exact k3.single x hx

theorem placed_inserts (qs : List Req) : ∀ b, placedFrom b (qs.map Op.insert) = qs := by
  induction qs with
  | nil => intro b; rfl
  | cons q qs ih => intro b; simp only [List.map_cons, placedFrom, ih]

theorem enough_left {decls : List (Str × Decl × Bool)} {q1 q2 : List Req} (h : Enough decls (q1 ++ q2)) : Enough decls q1 where
  strs := fun a n h1 h2 l h3 h4 => h.strs a n h1 h2 l h3 fun x hx => by obtain ⟨q, hq, hc⟩ := h4 x hx; exact ⟨q, by simp [hq], hc⟩
  ints := fun a n h1 h2 l h3 h4 => h.ints a n h1 h2 l h3 fun x hx => by obtain ⟨q, hq, hc⟩ := h4 x hx; exact ⟨q, by simp [hq], hc⟩
  once := fun q hq => h.once q (by simp [hq])

/-- C67 for programs that only insert, without teaching: make a tree with ordinary declarations; then, in any number of parts, insert texts that say
ordinary requests, and let threads ask.  Nothing is assumed of the state of the tree. -/
theorem C67_insert_phases [Floats] (H : Str → Nat) (geo : GeoTest) (R : Rounding) (hR : Sane R) (cap min : Nat)
    (decls : List (Str × Decl × Bool)) (parts : List (List TextReq × List (List EventOp))) (qs : List Req)
    (hs : List.Forall₂ ReqSays (parts.flatMap Prod.fst) qs)
    (hlen : ∀ q ∈ parts.flatMap Prod.fst, q.text.length < 1990) (hcap : cap % 256 ≠ 0) (hd : ∀ d ∈ decls, OrdinaryDecl d)
    (hnames : (decls.map (·.1)).Nodup) (hsize : decls.length + opsConstants (qs.map Op.insert) < 2 ^ 64 - 1)
    (hq : ∀ q ∈ qs, Ordinary decls (makeTree cap min decls).cfg.domains q) (he : Enough decls qs)
    (hids : ((parts.flatMap Prod.fst).map TextReq.id).Nodup)
    (hin : ∀ p ∈ parts, ∀ os ∈ p.2, AllInOrder (fun ev => WellTyped (makeTree cap min decls).cfg.domains ev ∧ EventInRange ev ∧
      ∀ q ∈ qs, Clear (makeTree cap min decls).cfg.domains ev q) decls [] os)
    (h : Heap) (hh : Holds h h.live) :
    ∃ s0 h0 outs, Session.init cap min decls h = .ok (s0, h0) ∧
      PartsRight geo decls [] (parts.map fun p => (p.1.map TextOp.insert, p.2)) outs ∧
      Goes H geo R h ((∀ p ∈ parts, ∀ os ∈ p.2, Tidy os) ∧ ∀ x ∈ outs, ∀ a ∈ x.2, ∀ y ∈ a.2, Answered y)
        s0 h0 (parts.map fun p => asPhase (p.1.map TextOp.insert, p.2)) outs := by
  have hflat : (parts.map fun p => (p.1.map TextOp.insert, p.2)).flatMap Prod.fst = (parts.flatMap Prod.fst).map TextOp.insert := by
    rw [List.flatMap_map, List.map_flatMap]
  have hready : ∀ A B, (parts.map fun p => (p.1.map TextOp.insert, p.2)).flatMap Prod.fst = A ++ B →
      ∃ tw, (TextWorld.init (makeTree cap min decls)).run R A = .ok tw ∧ ∃ tqs, InTree A tqs ∧
      Ready geo decls tqs (fun ev => WellTyped (makeTree cap min decls).cfg.domains ev ∧ EventInRange ev ∧
        ∀ q ∈ qs, Clear (makeTree cap min decls).cfg.domains ev q) tw := by
    intro A B hAB
    rw [hflat] at hAB
    obtain ⟨t1, t2, e1, rfl, rfl⟩ := List.map_eq_append_iff.mp hAB
    rw [e1] at hs hlen hids
    obtain ⟨q1, q2, rfl, s1, s2⟩ := forall₂_split hs
    rw [List.map_append, opsConstants_append] at hsize
    rw [List.map_append] at hids
    obtain ⟨tw, k1, _, _, k3⟩ := ordinary_ready geo R hR cap min decls t1 q1 s1 (fun o ho => hlen o (by simp [ho])) hcap hd hnames (by omega)
      (fun o h => hq o (by simp [h])) (enough_left he) (List.nodup_append.mp hids).1
    refine ⟨tw, k1, t1, ⟨q1.map .insert, q1, ?_, s1, ?_⟩, ⟨k3.fit, k3.size, fun ev hev => k3.exact ev ⟨hev.1, hev.2.1, fun q hq => hev.2.2 q (by simp [hq])⟩⟩⟩
    · clear * - s1
      induction s1 with
      | nil => exact .nil
      | cons h _ ih => exact .cons (.insert h) ih
    · unfold placed
      rw [placed_inserts]
  have hin' : ∀ p ∈ parts.map fun p => (p.1.map TextOp.insert, p.2), ∀ os ∈ p.2, AllInOrder (fun ev => WellTyped (makeTree cap min decls).cfg.domains ev ∧
      EventInRange ev ∧ ∀ q ∈ qs, Clear (makeTree cap min decls).cfg.domains ev q) decls [] os := by
    intro p hp
    obtain ⟨x, hx, rfl⟩ := List.mem_map.mp hp
    exact hin x hx
  obtain ⟨t, outs, k1, k2, k3⟩ := phases_right hready (parts.map fun p => (p.1.map TextOp.insert, p.2)) [] _ rfl rfl hin'
  obtain ⟨tw, b1, b2, b3, b4⟩ := ordinary_ready geo R hR cap min decls _ qs hs hlen hcap hd hnames hsize hq he hids
  rw [← hflat, k2] at b1; cases b1
  have e : treeOps (userOps (phaseOps ((parts.map fun p => (p.1.map TextOp.insert, p.2)).map asPhase))) =
      ((parts.flatMap Prod.fst).map TextOp.insert).map .call := by rw [phaseOps_asPhase, asCalls_ops, hflat]
  obtain ⟨s0, h0, e0, hg⟩ := C67_phases H geo R cap min decls _ ⟨t, []⟩ outs h hh (limits_nonzero hd) k1 b4.fit
    (by rw [e, inserts_newIds]; exact hids) (by rw [e, inserts_insertedSubs]; exact List.nodup_nil) (inOrder_parts hin')
  have e2 : (parts.map fun p => asPhase (p.1.map TextOp.insert, p.2)) = (parts.map fun p => (p.1.map TextOp.insert, p.2)).map asPhase := by
    rw [List.map_map]; rfl
  rw [e2]
  refine ⟨s0, h0, outs, e0, k3, hg.mono ?_⟩
  rintro ⟨c1, c2⟩
  refine ⟨by rw [phaseOps_asPhase]; exact asCalls_tidy _, ?_, by rw [e]; exact inserts_clean hs hlen hq, ?_, fun x hx => ⟨?_, c2 x hx⟩⟩
  · intro p hp
    obtain ⟨x, hx, rfl⟩ := List.mem_map.mp hp
    obtain ⟨y, hy, rfl⟩ := List.mem_map.mp hx
    exact c1 y hy
  · intro k hk
    rw [b3] at hk
    simp at hk
  · exact k3.single x hx

/-! ### concrete cases -/

/-- for the examples: the limits are binary fractions with few digits -/
local instance phasesFloats : Floats := coarseFloats fun _ => True

/-- Three parts: the tree is made and searched by threads, gets another request while the single thread holds an event, and is searched again. -/
def examplePhases : List Phase :=
  [⟨threadTree, mixedCalls⟩,
   ⟨[.make, .set 0 0 "i".toList (.int 9), .user (.tree (.call (.insert (memReq 3 "i > 6")))), .search [0]], ownCalls⟩,
   ⟨[.user (.search ["{\"i\": 7}".toList])], []⟩]

/-- all conditions of `C67_phases` are met by these parts; what the threads of the second part find is more than what those of the first found -/
example : (∃ t outs, (EventPlain.mk (TextWorld.init (makeTree 1 0 memEventDecls)) []).phases exGeo exactRounding examplePhases = .ok (t, outs) ∧
      t.world.tree.cfg.TablesFit ∧ Lossless exactRounding (TextWorld.init (makeTree 1 0 memEventDecls)) t.world examplePhases outs ∧
      outs.map (fun (x : List Answer × List (EventPlain × List Answer)) => (x.1, x.2.map Prod.snd)) =
        [([], [[.report ⟨2, 1, 0, 0, [1]⟩ [true], .found false], [.found true, .report ⟨1, 1, 0, 0, [2]⟩ [true]]]),
         ([.report ⟨2, 2, 0, 0, [2, 3]⟩ [true]], [[.report ⟨2, 2, 0, 0, [2, 1]⟩ [true]], [.found true, .report ⟨2, 2, 0, 0, [2, 3]⟩ [true]]]),
         ([.report ⟨2, 2, 0, 0, [2, 3]⟩ [true]], [])]) ∧
    (newIds (treeOps (userOps (phaseOps examplePhases)))).Nodup ∧ (insertedSubs (treeOps (userOps (phaseOps examplePhases)))).Nodup ∧
    ∀ p ∈ examplePhases, ∀ os ∈ p.calls, ∀ o ∈ os, o.Reads := by
  have h : (match (EventPlain.mk (TextWorld.init (makeTree 1 0 memEventDecls)) []).phases exGeo exactRounding examplePhases with
      | .error _ => false
      | .ok (t, outs) => decide ((t.world.pool.length = 0 ∧ (∀ m ∈ t.world.tree.cfg.stringMaps, m.values.length < sizeMax) ∧
          ∀ m ∈ t.world.tree.cfg.intMaps, m.values.length < sizeMax) ∧ outs.map (fun (x : List Answer × List (EventPlain × List Answer)) => (x.1, x.2.map Prod.snd)) =
        [([], [[.report ⟨2, 1, 0, 0, [1]⟩ [true], .found false], [.found true, .report ⟨1, 1, 0, 0, [2]⟩ [true]]]),
         ([.report ⟨2, 2, 0, 0, [2, 3]⟩ [true]], [[.report ⟨2, 2, 0, 0, [2, 1]⟩ [true]], [.found true, .report ⟨2, 2, 0, 0, [2, 3]⟩ [true]]]),
         ([.report ⟨2, 2, 0, 0, [2, 3]⟩ [true]], [])])) = true := by decide +kernel
  have hc : (treeOps (userOps (phaseOps examplePhases))).all cleanB = true := by decide +kernel
  refine ⟨?_, by decide +kernel, by decide +kernel, ?_⟩
  · split at h
    · cases h
    · rename_i t outs ht
      obtain ⟨⟨hp, hfit⟩, ho⟩ := of_decide_eq_true h
      refine ⟨t, outs, ht, hfit, ⟨?_, ?_, fun o ho => clean_of_check (List.all_eq_true.mp hc o ho), fun k hk => by omega, ?_⟩, ho⟩
      · constructor
        · decide +kernel
        · simp [phaseOps, examplePhases, threadTree, EventOp.MadeOnce, Recipe.Once]
      · simp only [examplePhases, mixedCalls, ownCalls, List.forall_mem_cons, Tidy, EventOp.MadeOnce, Recipe.Once, listOf, setAt]
        simp [List.range, List.range.loop]
      · have k : ∀ y ∈ outs.map (fun (x : List Answer × List (EventPlain × List Answer)) => (x.1, x.2.map Prod.snd)), (∀ a ∈ y.1, Answered a) ∧ ∀ a ∈ y.2, ∀ z ∈ a, Answered z := by
          rw [ho]
          simp [Answered]
        intro x hx
        have := k _ (List.mem_map_of_mem hx)
        exact ⟨this.1, fun a ha => this.2 _ (List.mem_map_of_mem ha)⟩
  · simp [examplePhases, mixedCalls, ownCalls, EventOp.Reads]

theorem useOwn_one : OneWithTexts useOwn := ⟨0, fun i os h _ => by
  have := List.mem_of_getElem? h
  simp only [useOwn, List.mem_cons, List.not_mem_nil, or_false] at this
  rcases this with rfl | rfl <;> simp [EventOp.Own]⟩

/-- The theorem on insertions, applied: insert, let threads ask, insert more, let other threads ask.  Whatever the interleaving `sched` of the first
part was, if it has finished, the interleaving `sched'` of the second goes well. -/
example (H : Str → Nat) : ∃ s0 h0 s1 h1, Session.init 1 0 plainDecls noHeap = .ok (s0, h0) ∧
    s0.run H exGeo exactRounding (asCalls [.insert (textReq 1 "i < 3")]) h0 = .ok ((s1, []), h1) ∧
    ∀ sched, ∃ m, ((s1.machine H exGeo exactRounding h1 none useOwn).run sched).2 = .ok m ∧ ((∀ q ∈ m.threads, q.isDone = true) →
      ∃ h2 s3 h3, freeObjs (m.threads.flatMap Thread.objs) m.heap = .ok ((), h2) ∧
        s1.run H exGeo exactRounding (asCalls [.insert (textReq 2 "not (i > 9)"), .insert (textReq 3 "s = 'a'")]) h2 = .ok ((s3, []), h3) ∧
        ∀ sched', ∃ m', ((s3.machine H exGeo exactRounding h3 none useCalls).run sched').2 = .ok m') := by
  obtain ⟨s0, h0, outs, e0, hr, hg⟩ := C67_insert_phases H exGeo exactRounding exactRounding_sane 1 0 plainDecls
    [([textReq 1 "i < 3"], useOwn), ([textReq 2 "not (i > 9)", textReq 3 "s = 'a'"], useCalls)] plainTextReqs
    plainTexts_say (by decide) (by decide) plainDecls_ordinary (by decide +kernel) (by decide +kernel) plainTextReqs_ordinary
    (enough_of_check (by decide +kernel)) (by decide) (by
      intro p hp
      simp only [List.mem_cons, List.not_mem_nil, or_false] at hp
      rcases hp with rfl | rfl
      · exact useOwn_inOrder
      · exact fun os hos => inOrder_mono (fun ev g => g.1) os (useCalls_inOrder os hos)) noHeap noHeap_holds
  obtain ⟨s1, h1, a1, al1, o1, q1, r1, g1⟩ := hg
  obtain ⟨_, al1', o1', q1', _, _, hr1⟩ := hr
  rw [q1] at q1'
  obtain ⟨⟨rfl, rfl⟩, rfl⟩ : (a1 = [] ∧ al1 = al1') ∧ o1 = o1' := by simpa using q1'
  refine ⟨s0, h0, s1, h1, e0, r1, fun sched => ?_⟩
  obtain ⟨m, m1, _, _, m2⟩ := (g1 none).1 sched (.inl useOwn_one)
  refine ⟨m, m1, fun hd => ?_⟩
  obtain ⟨h2, f1, s3, h3, a3, al3, o3, q3, r3, g3⟩ := m2 hd
  obtain ⟨_, al3', o3', q3', _⟩ := hr1
  rw [q3] at q3'
  obtain ⟨⟨rfl, rfl⟩, rfl⟩ : (a3 = [] ∧ al3 = al3') ∧ o3 = o3' := by simpa using q3'
  refine ⟨h2, s3, h3, f1, r3, fun sched' => ?_⟩
  obtain ⟨m', m1', _⟩ := (g3 none).1 sched' (.inl useCalls_one)
  exact ⟨m', m1'⟩

/-- and the theorem on all calls that change the tree: all its conditions are met by these two parts -/
example (H : Str → Nat) : ∃ s0 h0 outs, Session.init 1 0 plainDecls noHeap = .ok (s0, h0) ∧
    PartsRight exGeo plainDecls [] [(taughtTexts.take 3, useOwn), (taughtTexts.drop 3, useCalls)] outs ∧
    Goes H exGeo exactRounding noHeap ((∀ p ∈ [(taughtTexts.take 3, useOwn), (taughtTexts.drop 3, useCalls)], ∀ os ∈ p.2, Tidy os) ∧
      (∀ x ∈ outs, ∀ a ∈ x.2, ∀ y ∈ a.2, Answered y) ∧
      ∀ k < (built taughtTextOps).length, k ∈ doneIn exactRounding (TextWorld.init (makeTree 1 0 plainDecls)) (taughtTexts.map .call))
      s0 h0 ([(taughtTexts.take 3, useOwn), (taughtTexts.drop 3, useCalls)].map asPhase) outs :=
  C67_exact_phases H exGeo exactRounding exactRounding_sane 1 0 plainDecls [(taughtTexts.take 3, useOwn), (taughtTexts.drop 3, useCalls)] taughtTextOps
    taughtTexts_say taughtTexts_short (by decide) plainDecls_ordinary (by decide +kernel) (by decide +kernel) taughtTextOps_trained
    (taught_of_check (by decide +kernel)) (by decide) (by decide) (by decide) (by
      intro p hp
      simp only [List.mem_cons, List.not_mem_nil, or_false] at hp
      rcases hp with rfl | rfl
      · exact fun os hos => inOrder_mono (fun ev g => ⟨g.1, g.2.1⟩) os (useOwn_inOrder os hos)
      · exact fun os hos => inOrder_mono (fun ev g => ⟨g.1.1, g.1.2.1⟩) os (useCalls_inOrder os hos)) noHeap noHeap_holds

end BeTree
