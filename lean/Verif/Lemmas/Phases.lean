import Verif.Spec.Phases
import Verif.Lemmas.Machine
import Verif.Lemmas.OneText
/-
Programs in parts: the invariants of `Session` between the parts.
-/
namespace BeTree

theorem run_append_plain {geo : GeoTest} {R : Rounding} : ∀ (os os' : List EventOp) {w t t' : EventPlain} {as bs : List Answer},
    w.run geo R os = .ok (t, as) → t.run geo R os' = .ok (t', bs) → w.run geo R (os ++ os') = .ok (t', as ++ bs) := by
  intro os
  induction os with
  | nil => intro os' w t t' as bs h h'; cases h; exact h'
  | cons o os ih =>
    intro os' w t t' as bs h h'
    simp only [EventPlain.run] at h
    cases hs : w.step geo R o with
    | error x => rw [hs] at h; cases h
    | ok p =>
      obtain ⟨t1, a1⟩ := p
      rw [hs] at h
      dsimp only at h
      cases hs2 : t1.run geo R os with
      | error x => rw [hs2] at h; cases h
      | ok p2 =>
        obtain ⟨t2, a2⟩ := p2
        rw [hs2] at h
        cases h
        simp only [List.cons_append, EventPlain.run, hs, ih os' hs2 h', List.append_assoc]

theorem doneIn_append {geo : GeoTest} {R : Rounding} : ∀ (os os' : List EventOp) {w t : EventPlain} {as : List Answer},
    w.run geo R os = .ok (t, as) → ∀ k, k ∈ doneIn R w.world (treeOps (userOps (os ++ os'))) ↔
      k ∈ doneIn R w.world (treeOps (userOps os)) ∨ k ∈ doneIn R t.world (treeOps (userOps os')) := by
  intro os
  induction os with
  | nil => intro os' w t as h k; cases h; simp [userOps, treeOps, doneIn]
  | cons o os ih =>
    intro os' w t as h k
    simp only [EventPlain.run] at h
    cases hs : w.step geo R o with
    | error x => rw [hs] at h; cases h
    | ok p =>
      obtain ⟨t1, a1⟩ := p
      rw [hs] at h
      dsimp only at h
      cases hs2 : t1.run geo R os with
      | error x => rw [hs2] at h; cases h
      | ok p2 =>
        obtain ⟨t2, a2⟩ := p2
        rw [hs2] at h
        cases h
        rw [List.cons_append, eventStep_done hs (os ++ os') k, ih os' hs2 k, eventStep_done hs os k, or_assoc]

theorem phases_run {geo : GeoTest} {R : Rounding} : ∀ (ps : List Phase) {w t : EventPlain} {outs : List (List Answer × List (EventPlain × List Answer))},
    w.phases geo R ps = .ok (t, outs) → w.run geo R (phaseOps ps) = .ok (t, outs.flatMap Prod.fst) := by
  intro ps
  induction ps with
  | nil => intro w t outs h; cases h; rfl
  | cons p ps ih =>
    intro w t outs h
    simp only [EventPlain.phases] at h
    cases hs : w.run geo R p.ops with
    | error x => rw [hs] at h; cases h
    | ok q =>
      obtain ⟨t1, a1⟩ := q
      rw [hs] at h
      dsimp only at h
      cases hs2 : aloneRuns geo R t1.world p.calls with
      | error x => rw [hs2] at h; cases h
      | ok al =>
        rw [hs2] at h
        dsimp only at h
        cases hs3 : t1.phases geo R ps with
        | error x => rw [hs3] at h; cases h
        | ok q3 =>
          obtain ⟨t3, outs3⟩ := q3
          rw [hs3] at h
          cases h
          exact run_append_plain _ _ hs (ih hs3)

theorem aloneRuns_iff {geo : GeoTest} {R : Rounding} {w : TextWorld} : ∀ {calls : List (List EventOp)} {alone : List (EventPlain × List Answer)},
    aloneRuns geo R w calls = .ok alone ↔ List.Forall₂ (fun os a => (EventPlain.mk w []).run geo R os = .ok a) calls alone := by
  intro calls
  induction calls with
  | nil =>
    intro alone
    simp only [aloneRuns, List.forall₂_nil_left_iff, Except.ok.injEq]
    exact eq_comm
  | cons os calls ih =>
    intro alone
    simp only [aloneRuns]
    constructor
    · intro h
      cases hs : (EventPlain.mk w []).run geo R os with
      | error x => rw [hs] at h; cases h
      | ok a =>
        rw [hs] at h
        dsimp only at h
        cases hs2 : aloneRuns geo R w calls with
        | error x => rw [hs2] at h; cases h
        | ok al =>
          rw [hs2] at h
          cases h
          exact .cons hs (ih.mp hs2)
    · intro h
      cases h with
      | cons h1 h2 => rw [h1, ih.mpr h2]

theorem goes {H : Str → Nat} {geo : GeoTest} {R : Rounding} {h : Heap} {clean : Prop} (ps : List Phase) :
    ∀ {s : Session} {h1 : Heap} {st wt gn : Objs} {dn L : List Nat} {t : EventPlain} {outs : List (List Answer × List (EventPlain × List Answer))},
    Agree H s → Owned s.subs.mem st wt gn dn → ObjsOk s.subs.objs → Ahead s.subs.mem wt (treeOps (userOps (phaseOps ps))) →
    s.subs.plain.phases geo R ps = .ok (t, outs) → Filled t.world.tree.cfg → (∀ p ∈ ps, ∀ os ∈ p.calls, ∀ o ∈ os, o.Reads) →
    Holds h1 (Objs.flat (st ++ wt) ++ (heldBlocks s.subs.objs ++ L) ++ s.rest ++ h.live) →
    (clean → L = [] ∧ (setAt (phaseOps ps)).Nodup ∧ Unset s.subs.objs (setAt (phaseOps ps)) ∧ (∀ o ∈ treeOps (userOps (phaseOps ps)), Clean o) ∧
      (∀ o ∈ phaseOps ps, o.MadeOnce) ∧ (∀ x ∈ outs, ∀ a ∈ x.1, Answered a) ∧ (∀ p ∈ ps, ∀ os ∈ p.calls, Tidy os) ∧
      (∀ x ∈ outs, ∀ a ∈ x.2, ∀ y ∈ a.2, Answered y) ∧
      ∀ k < t.world.pool.length, k ∈ dn ∨ k ∈ doneIn R s.subs.mem.world (treeOps (userOps (phaseOps ps)))) →
    Goes H geo R h clean s h1 ps outs := by
  induction ps with
  | nil =>
    intro s h1 st wt gn dn L t outs hg hw hok ha hp hf hr hh hc
    cases hp
    obtain ⟨_, h2, _, e2, rfl, hh2⟩ := Does.run (freeObjs_does s.subs.objs) h1 (Objs.flat (st ++ wt) ++ L ++ s.rest ++ h.live)
      (hh.perm (by generalize heldBlocks s.subs.objs = B; blocks))
    obtain ⟨_, h3, M3, e3, hM3, hh3⟩ := Does.run (Session.free_does hg hw hf) h2 h.live hh2
    refine ⟨rfl, h2, h3, e2, e3, ⟨_, hh3.1⟩, fun hcl => ?_⟩
    obtain ⟨rfl, _, _, _, _, _, _, _, hall⟩ := hc hcl
    have hwt : wt = [] := by
      cases wt with
      | nil => rfl
      | cons p ps =>
        obtain ⟨k, x, hk, _, hn⟩ := hw.waits p (by simp)
        obtain ⟨hlt, _⟩ := List.getElem?_eq_some_iff.mp hk
        have := hall k hlt
        simp only [phaseOps, List.flatMap_nil, userOps, treeOps, doneIn, List.not_mem_nil, or_false] at this
        exact absurd this hn
    subst hwt
    have := hh3.1.trans (hM3.append_right _)
    simpa [Objs.flat] using this
  | cons p ps ih =>
    intro s h1 st wt gn dn L t outs hg hw hok ha hp hf hr hh hc
    simp only [EventPlain.phases] at hp
    cases hs : s.subs.plain.run geo R p.ops with
    | error x => rw [hs] at hp; cases hp
    | ok q =>
      obtain ⟨t1, a1⟩ := q
      rw [hs] at hp
      dsimp only at hp
      cases hs2 : aloneRuns geo R t1.world p.calls with
      | error x => rw [hs2] at hp; cases hp
      | ok alone =>
        rw [hs2] at hp
        dsimp only at hp
        cases hs3 : t1.phases geo R ps with
        | error x => rw [hs3] at hp; cases hp
        | ok q3 =>
          obtain ⟨t3, outs3⟩ := q3
          rw [hs3] at hp
          cases hp
          have hops : phaseOps (p :: ps) = p.ops ++ phaseOps ps := rfl
          rw [hops] at ha
          obtain ⟨⟨s', as⟩, h2, M1, e1, ⟨rfl, rfl, hg1, st1, wt1, gn1, L1, dn1, hdn, hM, hw1, hok1, ha1, hc1⟩, hh1⟩ :=
            Does.run (sessionRun_more (H := H) (L := L) p.ops (phaseOps ps) hg hw hok ha hs) h1 h.live hh
          have hh1' : Holds h2 (s'.shared st1 wt1 ++ (heldBlocks s'.subs.objs ++ (L1 ++ h.live))) := by
            refine hh1.perm ((hM.append_right _).trans ?_)
            unfold Session.shared
            generalize heldBlocks s'.subs.objs = B
            blocks
          have hal := aloneRuns_iff.mp hs2
          have hu := machine_undisturbed (H := H) (geo := geo) (R := R) hw1 hh1' p.calls alone (hr p (by simp)) hal
          have hq : OneWithTexts p.calls → ∀ root sched, Exclusive ((s'.machine H geo R h2 root p.calls).run sched).1 :=
            fun ⟨j, hj⟩ root sched => exclusive_of_one j hj sched
          refine ⟨s', h2, as, alone, outs3, rfl, e1, fun root => ⟨fun sched hex => ?_, fun f hex hfair => ?_⟩⟩
          · obtain ⟨m, k3, k4, k5⟩ := hu root sched (hex.elim (fun h => hq h _ _) id)
            refine ⟨m, k3, by simpa [Session.machine] using machine_run_length k3, k4, fun hdone => ?_⟩
            obtain ⟨N, hN, hN0⟩ := k5 hdone
            obtain ⟨_, h3, _, e3, rfl, hh3⟩ := Does.run (freeObjs_does (m.threads.flatMap Thread.objs)) m.heap
              (Objs.flat (st1 ++ wt1) ++ (heldBlocks s'.subs.objs ++ (L1 ++ N)) ++ s'.rest ++ h.live) (hN.perm (by
                unfold Session.shared
                generalize heldBlocks (m.threads.flatMap Thread.objs) = A, heldBlocks s'.subs.objs = B
                blocks))
            refine ⟨h3, e3, ih hg1 hw1 hok1 ha1 hs3 hf (fun q hq => hr q (by simp [hq])) hh3 fun hcl => ?_⟩
            obtain ⟨rfl, c1, c2, c3, c4, c5, c6, c7, c8⟩ := hc hcl
            rw [hops] at c1 c2 c3 c4 c8
            obtain ⟨d1, d2⟩ := hc1 c1 c2
            have capp : ∀ o, o ∈ treeOps (userOps p.ops) ∨ o ∈ treeOps (userOps (phaseOps ps)) → Clean o := by
              intro o ho
              apply c3
              have : ∀ (l : List EventOp), treeOps (userOps (l ++ phaseOps ps)) = treeOps (userOps l) ++ treeOps (userOps (phaseOps ps)) := by
                intro l
                induction l with
                | nil => rfl
                | cons x l ih =>
                  cases x <;> simp only [List.cons_append, userOps, ih]
                  rename_i u
                  cases u <;> simp [treeOps, ih]
              rw [this, List.mem_append]
              exact ho
            have capp2 : ∀ (l : List EventOp), setAt (l ++ phaseOps ps) = setAt l ++ setAt (phaseOps ps) := by
              intro l
              induction l with
              | nil => rfl
              | cons x l ih => cases x <;> simp [setAt, ih]
            refine ⟨?_, ?_, d1, fun o ho => capp o (.inr ho), fun o ho => c4 o (by simp [ho]), fun x hx => c5 x (by simp [hx]),
              fun q hq => c6 q (by simp [hq]), fun x hx => c7 x (by simp [hx]), fun k hk => ?_⟩
            · rw [d2 (fun o ho => capp o (.inl ho)) (fun o ho => c4 o (by simp [ho])) (fun a hx => c5 (as, alone) (by simp) a hx),
                hN0 (c6 p (by simp)) (c7 (as, alone) (by simp)), List.append_nil]
            · rw [capp2] at c1
              exact (List.nodup_append.mp c1).2.1
            · rcases c8 k hk with hk | hk
              · exact .inl (by simp [hk])
              · rcases (doneIn_append p.ops (phaseOps ps) hs k).mp hk with hk | hk
                · exact .inl (by simp [(hdn k).mpr hk])
                · exact .inr hk
          · obtain ⟨k, m, k1, k2⟩ := finish (m := s'.machine H geo R h2 root p.calls) (f := f)
              (fun k => (hu root _ (hex.elim (fun h => hq h _ _) (fun h => h k))).imp fun _ h => h.1) (by simpa [Session.machine] using hfair)
            exact ⟨k, m, k1, k2⟩

theorem FreedAt.mono {s : Session} {h h1 : Heap} {c c' : Prop} (hc : c' → c) (hf : FreedAt s h c h1) : FreedAt s h c' h1 := by
  obtain ⟨h2, h3, e1, e2, e3, e4⟩ := hf
  exact ⟨h2, h3, e1, e2, e3, fun h => e4 (hc h)⟩

theorem Goes.mono {H : Str → Nat} {geo : GeoTest} {R : Rounding} {h : Heap} {c c' : Prop} {ps : List Phase} : ∀ {s : Session} {h1 : Heap}
    {outs : List (List Answer × List (EventPlain × List Answer))}, Goes H geo R h c s h1 ps outs → (c' → c) → Goes H geo R h c' s h1 ps outs := by
  induction ps with
  | nil => intro s h1 outs hg hc; exact ⟨hg.1, hg.2.mono hc⟩
  | cons p ps ih =>
    intro s h1 outs hg hc
    obtain ⟨s', h2, a, alone, outs', e1, e2, hr⟩ := hg
    refine ⟨s', h2, a, alone, outs', e1, e2, fun root => ⟨fun sched hx => ?_, (hr root).2⟩⟩
    obtain ⟨m, k1, k2, k3, k4⟩ := (hr root).1 sched hx
    refine ⟨m, k1, k2, k3, fun hd => ?_⟩
    obtain ⟨h3, k5, k6⟩ := k4 hd
    exact ⟨h3, k5, ih k6 hc⟩

theorem PartsRight.single {geo : GeoTest} {decls : List (Str × Decl × Bool)} : ∀ {parts : List (List TextOp × List (List EventOp))} {pre : List TextOp}
    {outs : List (List Answer × List (EventPlain × List Answer))}, PartsRight geo decls pre parts outs → ∀ x ∈ outs, ∀ a ∈ x.1, Answered a := by
  intro parts
  induction parts with
  | nil => intro pre outs h x hx; cases h; cases hx
  | cons p ps ih =>
    intro pre outs h x hx
    obtain ⟨_, _, _, rfl, _, _, hr⟩ := h
    rcases List.mem_cons.mp hx with rfl | hx
    · intro a ha; cases ha
    · exact ih hr x hx

end BeTree
