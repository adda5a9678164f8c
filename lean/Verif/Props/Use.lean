import Verif.Lemmas.Use
import Verif.Props.Concurrent
import Verif.Props.Trained
/-
C66: from declarations, texts and calls to exact answers and freed memory, with threads.
-/
namespace BeTree
open Spec

/-- What is expected of threads that make the calls `calls` on the tree of `s`, which holds the requests `tqs`; `h` was the heap before the tree
was made and `h1` is the heap now.  In every interleaving in which texts do not get in each other's way (in every interleaving if at most one thread uses texts):
nothing goes wrong; a thread that has finished has the right answers; when all have finished, everything can be freed, the blocks of `h` are
still there, and (`clean`: nothing was lost before) no others if no search was refused and no entry of an event or list was written twice.
And if every thread gets its turn again and again, all finish. -/
def Serves (H : Str → Nat) (geo : GeoTest) (R : Rounding) (decls : List (Str × Decl × Bool)) (tqs : List TextReq) (s : Session) (h h1 : Heap)
    (clean : Prop) (calls : List (List EventOp)) : Prop :=
  ∀ root,
    (∀ sched, (OneWithTexts calls ∨ Exclusive ((s.machine H geo R h1 root calls).run sched).1) →
      ∃ m, ((s.machine H geo R h1 root calls).run sched).2 = .ok m ∧ m.threads.length = calls.length ∧
        (∀ (i : Nat) x, m.threads[i]? = some (Thread.done x) → ∃ os, calls[i]? = some os ∧ AllRight geo decls tqs [] os x.2) ∧
        ((∀ p ∈ m.threads, p.isDone = true) → FreedAfter s h
          (clean ∧ (∀ os ∈ calls, Tidy os) ∧ ∀ x, Thread.done x ∈ m.threads → ∀ a ∈ x.2, Answered a) m)) ∧
    ∀ f : Nat → Nat, (OneWithTexts calls ∨ ∀ k, Exclusive ((s.machine H geo R h1 root calls).run (firstSteps f k)).1) →
      (∀ i < calls.length, ∀ k, ∃ k' ≥ k, f k' = i) →
      ∃ k m, ((s.machine H geo R h1 root calls).run (firstSteps f k)).2 = .ok m ∧ m.threads.length = calls.length ∧
        ∀ p ∈ m.threads, p.isDone = true

theorem forall₂_get_both {α β : Type} {P : α → β → Prop} {l : List α} {l' : List β} (h : List.Forall₂ P l l') :
    ∀ {k : Nat} {b : β}, l'[k]? = some b → ∃ a, l[k]? = some a ∧ P a b := by
  induction h with
  | nil => intro k b hb; simp at hb
  | cons hp _ ih =>
    intro k b hb
    cases k with
    | zero => simp only [List.getElem?_cons_zero, Option.some.injEq] at hb; subst hb; exact ⟨_, rfl, hp⟩
    | succ k => simpa using ih (by simpa using hb)

/-- exact searches, and C65 -/
theorem serves_of_exact (H : Str → Nat) (geo : GeoTest) (R : Rounding) (cap min : Nat) (decls : List (Str × Decl × Bool)) (ops : List EventOp)
    (t : TextWorld) (h : Heap) (hh : Holds h h.live) (hlim : ∀ d ∈ decls, d.2.1.LimitNonzero)
    (hrun : (EventPlain.mk (TextWorld.init (makeTree cap min decls)) []).run geo R ops = .ok (⟨t, []⟩, [])) (hfit : t.tree.cfg.TablesFit)
    (hn : t.tree.cfg.domains.length = decls.length)
    (hids : (newIds (treeOps (userOps ops))).Nodup) (honce : (insertedSubs (treeOps (userOps ops))).Nodup)
    (tqs : List TextReq) (Good : List EventVar → Prop) (hx : Exactly geo decls tqs Good t.tree)
    (clean : Prop) (hclean : clean → Tidy ops ∧ (∀ o ∈ treeOps (userOps ops), Clean o) ∧
      ∀ k < t.pool.length, k ∈ doneIn R (TextWorld.init (makeTree cap min decls)) (treeOps (userOps ops))) :
    ∃ s0 s h0 h1, Session.init cap min decls h = .ok (s0, h0) ∧ s0.run H geo R ops h0 = .ok ((s, []), h1) ∧ s.subs.mem.world = t ∧
      ∀ calls, (∀ os ∈ calls, AllInOrder Good decls [] os) → Serves H geo R decls tqs s h h1 clean calls := by
  have hf : FewStrings t.tree.cfg := fun m hm => Nat.lt_of_lt_of_le (hfit.1 m hm) (by unfold sizeMax; omega)
  obtain ⟨s0, s, h0, h1, e0, e1, e2, -⟩ := C65_threads_partial H geo R cap min decls ops ⟨t, []⟩ [] h hh hlim hrun hfit hids honce [] []
    (by simp) .nil
  refine ⟨s0, s, h0, h1, e0, e1, e2, fun calls hc => ?_⟩
  obtain ⟨alone, k1, k2⟩ := alone_right (R := R) hx hf hn calls hc
  obtain ⟨s0', s', h0', h1', e0', e1', _, hr⟩ := C65_threads_partial H geo R cap min decls ops ⟨t, []⟩ [] h hh hlim hrun hfit hids honce calls alone
    (fun os hos => inOrder_reads os (hc os hos)) k1
  rw [e0] at e0'; cases e0'
  rw [e1] at e1'; cases e1'
  have hq : OneWithTexts calls → ∀ root sched, Exclusive ((s.machine H geo R h1 root calls).run sched).1 :=
    fun ⟨j, hj⟩ root sched => exclusive_of_one j hj sched
  intro root
  refine ⟨fun sched hex => ?_, fun f hex hfair => ?_⟩
  · obtain ⟨m, m1, m2, m3⟩ := (hr root).1 sched (hex.elim (fun x => hq x root sched) id)
    have ml : m.threads.length = calls.length := by simpa [Session.machine] using machine_run_length m1
    refine ⟨m, m1, ml, fun i x hi => ?_, fun hdone => ?_⟩
    · obtain ⟨a, a1, a2, _⟩ := m2.answers i x hi
      obtain ⟨os, o1, o2⟩ := forall₂_get_both k2 a1
      exact ⟨os, o1, by rw [a2]; exact o2⟩
    · obtain ⟨h2, h3, f1, f2, f3, f4⟩ := m3 hdone
      refine ⟨h2, h3, f1, f2, f3, ?_⟩
      rintro ⟨c1, c2, c3⟩
      obtain ⟨d1, d2, d3⟩ := hclean c1
      refine f4 ⟨c2, fun a ha y hy => ?_, d1, d2, d3, by simp⟩
      obtain ⟨i, hi⟩ := List.mem_iff_getElem?.mp ha
      obtain ⟨hlt, _⟩ := List.getElem?_eq_some_iff.mp hi
      have hlt' : i < m.threads.length := by rw [ml, k1.length_eq]; exact hlt
      have hp := hdone _ (List.getElem_mem hlt')
      cases hx : m.threads[i] with
      | done x =>
        have hx' : m.threads[i]? = some (Thread.done x) := by rw [List.getElem?_eq_getElem hlt', hx]
        obtain ⟨a', a1, a2, _⟩ := m2.answers i x hx'
        rw [hi] at a1; cases a1
        exact c3 x (List.mem_of_getElem? hx') y (by rw [a2]; exact hy)
      | _ => rw [hx] at hp; cases hp
  · exact (hr root).2 f (fun k => hex.elim (fun x => hq x root _) fun x => x k) hfair

/-! ### calls that make the tree -/

/-- calls that change the tree, given with texts -/
def asCalls (tops : List TextOp) : List EventOp := tops.map fun o => .user (.tree (.call o))

theorem asCalls_run {geo : GeoTest} {R : Rounding} : ∀ {tops : List TextOp} {w w' : TextWorld}, w.run R tops = .ok w' →
    (EventPlain.mk w []).run geo R (asCalls tops) = .ok (⟨w', []⟩, []) := by
  intro tops
  induction tops with
  | nil => intro w w' h; cases h; rfl
  | cons o os ih =>
    intro w w' h
    simp only [TextWorld.run] at h
    split at h
    · cases h
    · rename_i w1 h1
      have := ih h
      unfold asCalls at this ⊢
      simp only [List.map_cons, EventPlain.run, EventPlain.step, TextWorld.userStep, TextWorld.plainStep, h1, this, List.append_nil]

theorem asCalls_ops : ∀ (tops : List TextOp), treeOps (userOps (asCalls tops)) = tops.map .call
  | [] => rfl
  | o :: os => by
    have := asCalls_ops os
    unfold asCalls at this ⊢
    simp only [List.map_cons, userOps, treeOps, this]

theorem asCalls_tidy (tops : List TextOp) : Tidy (asCalls tops) := by
  refine ⟨?_, fun o ho => ?_⟩
  · have : setAt (asCalls tops) = [] := by
      induction tops with
      | nil => rfl
      | cons o os ih => simpa only [asCalls, List.map_cons, setAt] using ih
    rw [this]; exact List.nodup_nil
  · obtain ⟨x, _, rfl⟩ := List.mem_map.mp ho
    trivial

theorem tablesFit_of {cfg : Config} (ht : TablesOK cfg) (hs : ∀ v, (strTable cfg v).length < invalidId)
    (hi : ∀ v, (intTable cfg v).length < invalidId) : cfg.TablesFit := by
  have key : ∀ {α : Type} (l : List α) (key : α → Nat), (l.map key).Nodup → ∀ m ∈ l, l.find? (fun x => decide (key x = key m)) = some m := by
    intro α l key
    induction l with
    | nil => intro _ m hm; cases hm
    | cons a l ih =>
      intro hn m hm
      rw [List.map_cons, List.nodup_cons] at hn
      rcases List.mem_cons.mp hm with rfl | hm
      · simp
      · have : key a ≠ key m := fun h => hn.1 (List.mem_map.mpr ⟨m, hm, h.symm⟩)
        rw [List.find?_cons_of_neg (by simpa using this)]
        exact ih hn.2 m hm
  refine ⟨fun m hm => ?_, fun m hm => ?_⟩
  · have h1 := hs m.attr.var
    have h2 := key cfg.stringMaps (fun m => m.attr.var) ht.strVars m hm
    unfold strTable findStrMap at h1
    rw [h2] at h1
    exact h1
  · have h1 := hi m.attr.var
    have h2 := key cfg.intMaps (fun m => m.attr.var) ht.intVars m hm
    unfold intTable findIntMap at h1
    rw [h2] at h1
    exact h1

theorem limits_nonzero [Floats] {decls : List (Str × Decl × Bool)} (hd : ∀ d ∈ decls, OrdinaryDecl d) : ∀ d ∈ decls, d.2.1.LimitNonzero := by
  intro d h
  have := (hd d h).positive
  cases hx : d.2.1 <;> rw [hx] at this <;> exact this

/-- a tree that answers exactly: its tables fit their numbers, and searches with good events find the requests -/
structure Ready (geo : GeoTest) (decls : List (Str × Decl × Bool)) (tqs : List TextReq) (Good : List EventVar → Prop) (t : TextWorld) : Prop where
  fit : t.tree.cfg.TablesFit
  size : t.tree.cfg.domains.length = decls.length
  exact : Exactly geo decls tqs Good t.tree

theorem Ready.few {geo : GeoTest} {decls : List (Str × Decl × Bool)} {tqs : List TextReq} {Good : List EventVar → Prop} {t : TextWorld}
    (h : Ready geo decls tqs Good t) : FewStrings t.tree.cfg :=
  fun m hm => Nat.lt_of_lt_of_le (h.fit.1 m hm) (by unfold sizeMax; omega)

theorem ordinary_ready [Floats] (geo : GeoTest) (R : Rounding) (hR : Sane R) (cap min : Nat)
    (decls : List (Str × Decl × Bool)) (tqs : List TextReq) (qs : List Req) (hs : List.Forall₂ ReqSays tqs qs)
    (hlen : ∀ q ∈ tqs, q.text.length < 1990) (hcap : cap % 256 ≠ 0) (hd : ∀ d ∈ decls, OrdinaryDecl d) (hnames : (decls.map (·.1)).Nodup)
    (hsize : decls.length + opsConstants (qs.map Op.insert) < 2 ^ 64 - 1)
    (hq : ∀ q ∈ qs, Ordinary decls (makeTree cap min decls).cfg.domains q) (he : Enough decls qs) (hids : (tqs.map TextReq.id).Nodup) :
    ∃ tw, (TextWorld.init (makeTree cap min decls)).run R (tqs.map .insert) = .ok tw ∧ tw.live = tqs.reverse ∧ tw.pool = [] ∧
      Ready geo decls tqs (fun ev => WellTyped (makeTree cap min decls).cfg.domains ev ∧ EventInRange ev ∧
        ∀ q ∈ qs, Clear (makeTree cap min decls).cfg.domains ev q) tw := by
  obtain ⟨w, hw, hlive, hall⟩ := C47_ordinary_use_correct geo R hR cap min decls qs hcap hd hnames hsize hq he
    (by rw [← same_ids hs]; exact hids)
  obtain ⟨tw, h1, h2, h3⟩ := texts_run (tw := TextWorld.init (makeTree cap min decls)) hs hlen rfl hw
    (by rw [hlive, List.length_reverse]; simp [World.init])
  obtain ⟨w', hw', st⟩ := history_quiet hR hcap hd hsize hq
  rw [hw] at hw'; cases hw'
  have hpool : ∀ (tqs : List TextReq) {a b : TextWorld}, a.run R (tqs.map .insert) = .ok b → b.pool = a.pool := by
    intro tqs
    induction tqs with
    | nil => intro a b h; cases h; rfl
    | cons q tqs ih =>
      intro a b h
      simp only [List.map_cons, TextWorld.run] at h
      split at h
      · cases h
      · rename_i a1 ha
        rw [ih h]
        simp only [TextWorld.step] at ha
        split at ha <;> cases ha <;> rfl
  refine ⟨tw, h1, by rw [h3]; simp [TextWorld.init], hpool tqs h1, ⟨?_, ?_, ?_⟩⟩
  · rw [h2]
    exact tablesFit_of st.grown.tables (fun v => by have := st.strs v; omega) (fun v => by have := st.ints v; omega)
  · rw [h2, st.doms, makeTree_domains]; simp
  · rintro ev ⟨g1, g2, g3⟩ rep
    obtain ⟨a1, a2⟩ := hall ev g1 g2 g3 rep
    rw [h2]
    by_cases hm : HasMandatory decls ev
    · obtain ⟨rep', ids, b1, b2, b3, b4⟩ := a2 hm
      refine ⟨some rep', ids, b1, b2, ⟨by simp [hm], by simp, b3, fun _ id => ?_⟩⟩
      rw [b4]
      constructor
      · rintro ⟨q, hm, rfl, hsat⟩
        obtain ⟨q0, hq0, hsay⟩ := forall₂_mem_right hs hm
        exact ⟨q0, hq0, hsay.id, q.expr, hsay.expr, by rw [hsay.consts]; exact hsat⟩
      · rintro ⟨q0, hm, rfl, e, he, hsat⟩
        obtain ⟨q, hq, hsay⟩ := forall₂_mem_left hs hm
        refine ⟨q, hq, hsay.id.symm, ?_⟩
        rw [says_unique hsay.expr he, ← hsay.consts]
        exact hsat
    · refine ⟨none, [], a1 ?_, by simp, ⟨by simp [hm], by simp, List.nodup_nil, by simp⟩⟩
      unfold HasMandatory at hm
      push Not at hm
      exact hm

theorem taught_ready [F : Floats] (geo : GeoTest) (R : Rounding) (hR : Sane R) (cap min : Nat)
    (decls : List (Str × Decl × Bool)) (tops : List TextOp) (ops : List Op) (hs : List.Forall₂ OpSays tops ops)
    (hlen : ∀ o ∈ tops, TextShorter 1990 o) (hcap : cap % 256 ≠ 0) (hd : ∀ d ∈ decls, OrdinaryDecl d) (hnames : (decls.map (·.1)).Nodup)
    (hsize : decls.length + opsConstants ops < 2 ^ 64 - 1)
    (ho : ∀ o ∈ ops, TrainedOp decls (makeTree cap min decls).cfg.domains o) (ht : TaughtFirst ops) (hids : ((placed ops).map Req.id).Nodup) :
    ∃ tw, (TextWorld.init (makeTree cap min decls)).run R tops = .ok tw ∧ List.Forall₂ ReqSays tw.live (placed ops).reverse ∧
      tw.pool.length = (built ops).length ∧
      Ready geo decls tw.live (fun ev => WellTyped (makeTree cap min decls).cfg.domains ev ∧ EventInRange ev) tw := by
  obtain ⟨w, hw, hpool, hlive, hall⟩ := C56_taught_tree_correct geo R hR cap min decls ops hcap hd hnames hsize ho ht hids
  obtain ⟨w', hw', st⟩ := taught_learned hR (cap := cap) (min := min) hcap hd hnames hsize ho ht
  rw [hw] at hw'; cases hw'
  obtain ⟨tw, h1, h2⟩ := text_run hs (init_same _) hlen hw
  have hl : List.Forall₂ ReqSays tw.live (placed ops).reverse := by rw [← hlive]; exact h2.live
  have hpl : tw.pool.length = (built ops).length := by
    rw [← hpool, List.length_map]
    exact h2.pool.length_eq
  have hlen' : w.tree.cfg.domains.length = decls.length := by
    have := congrArg List.length (@Learned.ext (floatsOf F decls) _ _ _ _ _ st).doms
    simpa [makeTree_domains] using this
  refine ⟨tw, h1, hl, hpl, ⟨?_, by rw [h2.tree]; exact hlen', ?_⟩⟩
  · rw [h2.tree]
    exact tablesFit_of (@Grown.tables (floatsOf F decls) _ _ (@Steady.grown (floatsOf F decls) _ _ _ _ (@Learned.steady (floatsOf F decls) _ _ _ _ _ st)))
      (fun v => by have := (@Steady.strs (floatsOf F decls) _ _ _ _ (@Learned.steady (floatsOf F decls) _ _ _ _ _ st)) v; omega)
      (fun v => by have := (@Steady.ints (floatsOf F decls) _ _ _ _ (@Learned.steady (floatsOf F decls) _ _ _ _ _ st)) v; omega)
  · rintro ev ⟨g1, g2⟩ rep
    obtain ⟨a1, a2⟩ := hall ev g1 g2 rep
    rw [h2.tree]
    by_cases hm : HasMandatory decls ev
    · obtain ⟨rep', ids, b1, b2, b3, b4⟩ := a2 hm
      refine ⟨some rep', ids, b1, b2, ⟨by simp [hm], by simp, b3, fun _ id => ?_⟩⟩
      rw [b4]
      constructor
      · rintro ⟨q, hm, rfl, hsat⟩
        obtain ⟨q0, hq0, hsay⟩ := forall₂_mem_right hl (List.mem_reverse.2 hm)
        exact ⟨q0, hq0, hsay.id, q.expr, hsay.expr, by rw [hsay.consts]; exact hsat⟩
      · rintro ⟨q0, hm, rfl, e, he, hsat⟩
        obtain ⟨q, hq, hsay⟩ := forall₂_mem_left hl hm
        refine ⟨q, List.mem_reverse.1 hq, hsay.id.symm, ?_⟩
        rw [says_unique hsay.expr he, ← hsay.consts]
        exact hsat
    · refine ⟨none, [], a1 ?_, by simp, ⟨by simp [hm], by simp, List.nodup_nil, by simp⟩⟩
      unfold HasMandatory at hm
      push Not at hm
      exact hm

theorem texts_clean {decls : List (Str × Decl × Bool)} {doms : List Domain} {tops : List TextOp} {ops : List Op} (hs : List.Forall₂ OpSays tops ops)
    (hlen : ∀ o ∈ tops, TextShorter 1990 o) (ho : ∀ o ∈ ops, TrainedOp decls doms o) : ∀ o ∈ tops.map MemOp.call, Clean o := by
  intro o ho'
  obtain ⟨x, hx, rfl⟩ := List.mem_map.mp ho'
  obtain ⟨y, hy, hsay⟩ := forall₂_mem_left hs hx
  have hshort := hlen x hx
  have htr := ho y hy
  cases hsay with
  | insert hq =>
    refine ⟨_, parseText_short hshort hq.expr, fun f hf => ?_⟩
    rw [hq.consts]
    exact htr.supplied f ((caps_parseBuild _).mem_iff.1 hf)
  | makeSub hq => exact ⟨_, parseText_short hshort hq.expr⟩
  | insertSub k => trivial
  | changeBoundaries he => exact ⟨_, parseText_short hshort he⟩

theorem inserts_clean {decls : List (Str × Decl × Bool)} {doms : List Domain} {tqs : List TextReq} {qs : List Req} (hs : List.Forall₂ ReqSays tqs qs)
    (hlen : ∀ q ∈ tqs, q.text.length < 1990) (hq : ∀ q ∈ qs, Ordinary decls doms q) : ∀ o ∈ (tqs.map TextOp.insert).map MemOp.call, Clean o := by
  intro o ho
  obtain ⟨x, hx, rfl⟩ := List.mem_map.mp ho
  obtain ⟨q0, hq0, rfl⟩ := List.mem_map.mp hx
  obtain ⟨q, hqm, hsay⟩ := forall₂_mem_left hs hq0
  refine ⟨_, parseText_short (hlen q0 hq0) hsay.expr, fun f hf => ?_⟩
  rw [hsay.consts]
  exact (hq q hqm).supplied f ((caps_parseBuild _).mem_iff.1 hf)

theorem inserts_newIds : ∀ l : List TextReq, newIds ((l.map TextOp.insert).map MemOp.call) = l.map TextReq.id := by
  intro l
  induction l with
  | nil => rfl
  | cons q l ih => simp only [List.map_cons, newIds, ih]

theorem inserts_insertedSubs : ∀ l : List TextReq, insertedSubs ((l.map TextOp.insert).map MemOp.call) = [] := by
  intro l
  induction l with
  | nil => rfl
  | cons q l ih => simpa only [List.map_cons, insertedSubs] using ih

/-- C66: ordinary use, from start to end.  Make a tree with ordinary declarations, insert any number of texts that say ordinary requests with distinct
ids; then any number of threads ask, with texts and with events that they make, fill and free.  All insertions return and are accepted, all threads
get exact answers, and at the end nothing is left allocated that was not before.  Nothing is assumed of the state of the tree. -/
theorem C66_ordinary_threads [Floats] (H : Str → Nat) (geo : GeoTest) (R : Rounding) (hR : Sane R) (cap min : Nat)
    (decls : List (Str × Decl × Bool)) (tqs : List TextReq) (qs : List Req) (hs : List.Forall₂ ReqSays tqs qs)
    (hlen : ∀ q ∈ tqs, q.text.length < 1990) (hcap : cap % 256 ≠ 0) (hd : ∀ d ∈ decls, OrdinaryDecl d) (hnames : (decls.map (·.1)).Nodup)
    (hsize : decls.length + opsConstants (qs.map Op.insert) < 2 ^ 64 - 1)
    (hq : ∀ q ∈ qs, Ordinary decls (makeTree cap min decls).cfg.domains q) (he : Enough decls qs) (hids : (tqs.map TextReq.id).Nodup)
    (h : Heap) (hh : Holds h h.live) :
    ∃ s0 s h0 h1, Session.init cap min decls h = .ok (s0, h0) ∧ s0.run H geo R (asCalls (tqs.map .insert)) h0 = .ok ((s, []), h1) ∧
      s.subs.mem.world.live = tqs.reverse ∧
      ∀ calls, (∀ os ∈ calls, AllInOrder (fun ev => WellTyped (makeTree cap min decls).cfg.domains ev ∧ EventInRange ev ∧
          ∀ q ∈ qs, Clear (makeTree cap min decls).cfg.domains ev q) decls [] os) →
        Serves H geo R decls tqs s h h1 True calls := by
  obtain ⟨tw, h1, h2, hp0, rd⟩ := ordinary_ready geo R hR cap min decls tqs qs hs hlen hcap hd hnames hsize hq he hids
  obtain ⟨s0, s, h0, h1', e0, e1, e2, hr⟩ := serves_of_exact H geo R cap min decls (asCalls (tqs.map .insert)) tw h hh (limits_nonzero hd)
    (asCalls_run h1) rd.fit rd.size (by rw [asCalls_ops, inserts_newIds]; exact hids) (by rw [asCalls_ops, inserts_insertedSubs]; exact List.nodup_nil) tqs _ rd.exact
    True (fun _ => ⟨asCalls_tidy _, by rw [asCalls_ops]; exact inserts_clean hs hlen hq, by rw [hp0]; intro k hk; simp at hk⟩)
  exact ⟨s0, s, h0, h1', e0, e1, by rw [e2, h2], hr⟩

/-- C66 with all calls that change the tree: make a tree with ordinary declarations, and then, in any order and number, build subscriptions, insert
subscriptions built before, widen limits and insert requests plainly, the latter after the calls that teach the tree their constants; with distinct
ids, no built subscription inserted twice.  All calls return, and threads get exact answers for what is in the tree; at the end nothing is left
allocated that was not before, if all built subscriptions were inserted. -/
theorem C66_taught_threads [F : Floats] (H : Str → Nat) (geo : GeoTest) (R : Rounding) (hR : Sane R) (cap min : Nat)
    (decls : List (Str × Decl × Bool)) (tops : List TextOp) (ops : List Op) (hs : List.Forall₂ OpSays tops ops)
    (hlen : ∀ o ∈ tops, TextShorter 1990 o) (hcap : cap % 256 ≠ 0) (hd : ∀ d ∈ decls, OrdinaryDecl d) (hnames : (decls.map (·.1)).Nodup)
    (hsize : decls.length + opsConstants ops < 2 ^ 64 - 1)
    (ho : ∀ o ∈ ops, TrainedOp decls (makeTree cap min decls).cfg.domains o) (ht : TaughtFirst ops)
    (hids : ((placed ops).map Req.id).Nodup) (hnew : (newIds (tops.map .call)).Nodup) (honce : (insertedSubs (tops.map .call)).Nodup)
    (h : Heap) (hh : Holds h h.live) :
    ∃ s0 s h0 h1, Session.init cap min decls h = .ok (s0, h0) ∧ s0.run H geo R (asCalls tops) h0 = .ok ((s, []), h1) ∧
      List.Forall₂ ReqSays s.subs.mem.world.live (placed ops).reverse ∧
      ∀ calls, (∀ os ∈ calls, AllInOrder (fun ev => WellTyped (makeTree cap min decls).cfg.domains ev ∧ EventInRange ev) decls [] os) →
        Serves H geo R decls s.subs.mem.world.live s h h1 (∀ k < (built ops).length,
          k ∈ doneIn R (TextWorld.init (makeTree cap min decls)) (tops.map .call)) calls := by
  obtain ⟨tw, h1, hl, hpl, rd⟩ := taught_ready geo R hR cap min decls tops ops hs hlen hcap hd hnames hsize ho ht hids
  obtain ⟨s0, s, h0, h1', e0, e1, e2, hr⟩ := serves_of_exact H geo R cap min decls (asCalls tops) tw h hh (limits_nonzero hd)
    (asCalls_run h1) rd.fit rd.size (by rw [asCalls_ops]; exact hnew) (by rw [asCalls_ops]; exact honce) tw.live _ rd.exact
    (∀ k < (built ops).length, k ∈ doneIn R (TextWorld.init (makeTree cap min decls)) (tops.map .call)) (fun hc => ⟨asCalls_tidy _, by rw [asCalls_ops]; exact texts_clean hs hlen ho, by rw [asCalls_ops, hpl]; exact hc⟩)
  subst e2
  exact ⟨s0, s, h0, h1', e0, e1, hl, hr⟩

/-! ### a concrete case -/

/-- for the examples: the limits are binary fractions with few digits -/
local instance useFloats : Floats := coarseFloats fun _ => True

/-- One thread asks with texts; another fills an event, searches with it, sets another variable, uses it again and frees it. -/
def useCalls : List (List EventOp) :=
  [[.user (.search [plainText, plainText]), .user (.exists plainText)],
   [.make, .set 0 0 "i".toList (.int 7), .set 0 5 "now".toList (.int 1), .search [0], .set 0 2 "s".toList (.string "a".toList), .search [0, 0],
    .exists 0, .free 0]]

/-- two threads with their own events, one of which lacks `now` at first -/
def useOwn : List (List EventOp) :=
  [[.make, .set 0 0 "i".toList (.int 7), .search [0], .set 0 5 "now".toList (.int 1), .search [0]],
   [.make, .make, .set 1 0 "i".toList (.int 2), .set 1 5 "now".toList (.int 1), .exists 1, .search [1], .free 0]]

theorem use_good {ev : List EventVar} (h : ∀ v ∈ ev, (v.attr = ['i'] ∧ ∃ k, v.value = .int k) ∨ (v.attr = ['n', 'o', 'w'] ∧ ∃ k, v.value = .int k) ∨
    (v.attr = ['s'] ∧ ∃ x, v.value = .string x)) :
    WellTyped plainDomains ev ∧ EventInRange ev ∧ ∀ q ∈ plainTextReqs, Clear plainDomains ev q := by
  have di : declaredType plainDomains ['i'] = some .int := by decide +kernel
  have dn : declaredType plainDomains ['n', 'o', 'w'] = some .int := by decide +kernel
  have ds : declaredType plainDomains ['s'] = some .string := by decide +kernel
  have hw : WellTyped plainDomains ev := by
    intro v hv
    rcases h v hv with ⟨h1, k, h2⟩ | ⟨h1, k, h2⟩ | ⟨h1, k, h2⟩ <;> rw [h1, h2]
    · exact ⟨.int, di, trivial⟩
    · exact ⟨.int, dn, trivial⟩
    · exact ⟨.string, ds, trivial⟩
  refine ⟨hw, fun v hv l hl => ?_, fun q _ => plain_clear hw q⟩
  rcases h v hv with ⟨_, k, h2⟩ | ⟨_, k, h2⟩ | ⟨_, k, h2⟩ <;> rw [h2] at hl <;> cases hl

theorem use_full {ev : List EventVar} (hi : ∃ v ∈ ev, v.attr = ['i']) (hn : ∃ v ∈ ev, v.attr = ['n', 'o', 'w']) : HasMandatory plainDecls ev := by
  intro d hd hm
  simp only [plainDecls, List.mem_cons, List.not_mem_nil, or_false] at hd
  rcases hd with rfl | rfl | rfl | rfl | rfl | rfl | rfl | rfl | rfl | rfl | rfl <;> first
    | (cases hm; done)
    | (obtain ⟨v, h1, h2⟩ := hi; exact ⟨v, h1, by rw [h2]; rfl⟩)
    | (obtain ⟨v, h1, h2⟩ := hn; exact ⟨v, h1, by rw [h2]; rfl⟩)

/-- the conditions on the events of the example -/
def UseGood (ev : List EventVar) : Prop := WellTyped plainDomains ev ∧ EventInRange ev ∧ ∀ q ∈ plainTextReqs, Clear plainDomains ev q

theorem useCalls_one : OneWithTexts useCalls := by
  refine ⟨0, fun i os h hi => ?_⟩
  match i with
  | 0 => exact absurd rfl hi
  | 1 =>
    simp only [useCalls, List.getElem?_cons_succ, List.getElem?_cons_zero, Option.some.injEq] at h
    subst h
    simp [EventOp.Own]
  | i + 2 => simp [useCalls] at h

theorem useCalls_inOrder : ∀ os ∈ useCalls, AllInOrder (fun ev => UseGood ev ∧ HasMandatory plainDecls ev) plainDecls [] os := by
  have ht : UseGood plainTextVars := use_good (by simp [plainTextVars])
  have hf : HasMandatory plainDecls plainTextVars := use_full (by simp [plainTextVars]) (by simp [plainTextVars])
  intro os hos
  simp only [useCalls, List.mem_cons, List.not_mem_nil, or_false] at hos
  rcases hos with rfl | rfl
  · refine ⟨fun t h => ?_, ⟨plainTextVars, plainText_says, ⟨ht, hf⟩, hf⟩, trivial⟩
    have : t = plainText := by simpa using h
    subst this
    exact ⟨plainTextVars, plainText_says, ht, hf⟩
  · refine ⟨trivial, ⟨⟨_, rfl⟩, ⟨_, _, rfl, rfl⟩, by decide⟩, ⟨⟨_, rfl⟩, ⟨_, _, rfl, rfl⟩, by decide⟩, fun k hk => ?_,
      ⟨⟨_, rfl⟩, ⟨_, _, rfl, rfl⟩, by decide⟩, fun k hk => ?_, ⟨_, ⟨_, rfl, rfl⟩, ?_, ?_⟩, ⟨_, _, rfl, rfl⟩, trivial⟩
    · have : k = 0 := by simpa using hk
      subst this
      exact ⟨_, ⟨_, rfl, rfl⟩, use_good (by simp [held, plainDecls]), use_full (by simp [held, plainDecls]) (by simp [held, plainDecls])⟩
    · have : k = 0 := by simpa using hk
      subst this
      exact ⟨_, ⟨_, rfl, rfl⟩, use_good (by simp [held, plainDecls]), use_full (by simp [held, plainDecls]) (by simp [held, plainDecls])⟩
    · exact ⟨use_good (by simp [held, plainDecls]), use_full (by simp [held, plainDecls]) (by simp [held, plainDecls])⟩
    · exact use_full (by simp [held, plainDecls]) (by simp [held, plainDecls])

theorem useOwn_inOrder : ∀ os ∈ useOwn, AllInOrder UseGood plainDecls [] os := by
  intro os hos
  simp only [useOwn, List.mem_cons, List.not_mem_nil, or_false] at hos
  rcases hos with rfl | rfl
  · refine ⟨trivial, ⟨⟨_, rfl⟩, ⟨_, _, rfl, rfl⟩, by decide⟩, fun k hk => ?_, ⟨⟨_, rfl⟩, ⟨_, _, rfl, rfl⟩, by decide⟩, fun k hk => ?_, trivial⟩
    · have : k = 0 := by simpa using hk
      subst this
      exact ⟨_, ⟨_, rfl, rfl⟩, use_good (by simp [held, plainDecls])⟩
    · have : k = 0 := by simpa using hk
      subst this
      exact ⟨_, ⟨_, rfl, rfl⟩, use_good (by simp [held, plainDecls])⟩
  · refine ⟨trivial, trivial, ⟨⟨_, rfl⟩, ⟨_, _, rfl, rfl⟩, by decide⟩, ⟨⟨_, rfl⟩, ⟨_, _, rfl, rfl⟩, by decide⟩, ⟨_, ⟨_, rfl, rfl⟩, ?_, ?_⟩,
      fun k hk => ?_, ⟨_, _, rfl, rfl⟩, trivial⟩
    · exact use_good (by simp [held, plainDecls])
    · exact use_full (by simp [held, plainDecls]) (by simp [held, plainDecls])
    · have : k = 1 := by simpa using hk
      subst this
      exact ⟨_, ⟨_, rfl, rfl⟩, use_good (by simp [held, plainDecls])⟩

/-- the theorem, applied to threads with their own events: nothing is left to assume, every interleaving goes well -/
example (H : Str → Nat) : ∃ s0 s h0 h1, Session.init 1 0 plainDecls noHeap = .ok (s0, h0) ∧
    s0.run H exGeo exactRounding (asCalls (plainTexts.map .insert)) h0 = .ok ((s, []), h1) ∧
    ∀ sched, ∃ m, ((s.machine H exGeo exactRounding h1 none useOwn).run sched).2 = .ok m ∧
      ∀ (i : Nat) x, m.threads[i]? = some (Thread.done x) → ∃ os, useOwn[i]? = some os ∧ AllRight exGeo plainDecls plainTexts [] os x.2 := by
  obtain ⟨s0, s, h0, h1, e0, e1, _, hr⟩ := C66_ordinary_threads H exGeo exactRounding exactRounding_sane 1 0 plainDecls plainTexts plainTextReqs
    plainTexts_say (by decide) (by decide) plainDecls_ordinary (by decide +kernel) (by decide +kernel) plainTextReqs_ordinary
    (enough_of_check (by decide +kernel)) (by decide) noHeap noHeap_holds
  refine ⟨s0, s, h0, h1, e0, e1, fun sched => ?_⟩
  obtain ⟨m, m1, _, m3, _⟩ := (hr useOwn useOwn_inOrder none).1 sched (.inl ⟨0, fun i os h _ => by
    have := List.mem_of_getElem? h
    simp only [useOwn, List.mem_cons, List.not_mem_nil, or_false] at this
    rcases this with rfl | rfl <;> simp [EventOp.Own]⟩)
  exact ⟨m, m1, m3⟩

theorem inOrder_mono {P Q : List EventVar → Prop} {decls : List (Str × Decl × Bool)} (h : ∀ ev, P ev → Q ev) : ∀ (os : List EventOp)
    {shelf : List (Option EventObj)}, AllInOrder P decls shelf os → AllInOrder Q decls shelf os := by
  intro os
  induction os with
  | nil => intro shelf _; trivial
  | cons o os ih =>
    intro shelf ho
    refine ⟨?_, ih ho.2⟩
    have h1 := ho.1
    cases o with
    | user u =>
      cases u with
      | tree o => exact h1
      | search texts => exact fun t ht => (h1 t ht).imp fun _ x => ⟨x.1, h _ x.2⟩
      | «exists» t => exact h1.imp fun _ x => ⟨x.1, h _ x.2.1, x.2.2⟩
    | search ks => exact fun k hk => (h1 k hk).imp fun _ x => ⟨x.1, h _ x.2⟩
    | «exists» k => exact h1.imp fun _ x => ⟨x.1, h _ x.2.1, x.2.2⟩
    | _ => exact h1

/-- and to a thread with texts and one without, after all kinds of calls that change the tree: in every fair interleaving both finish, and then
nothing is left allocated -/
example (H : Str → Nat) (f : Nat → Nat) (hfair : ∀ i < 2, ∀ k, ∃ k' ≥ k, f k' = i) :
    ∃ s0 s h0 h1 k m h2 h3, Session.init 1 0 plainDecls noHeap = .ok (s0, h0) ∧
    s0.run H exGeo exactRounding (asCalls taughtTexts) h0 = .ok ((s, []), h1) ∧
    ((s.machine H exGeo exactRounding h1 none useCalls).run (firstSteps f k)).2 = .ok m ∧ (∀ p ∈ m.threads, p.isDone = true) ∧
    freeObjs (m.threads.flatMap Thread.objs ++ s.subs.objs) m.heap = .ok ((), h2) ∧ s.free h2 = .ok ((), h3) ∧ h3.live = [] := by
  obtain ⟨s0, s, h0, h1, e0, e1, _, hr⟩ := C66_taught_threads H exGeo exactRounding exactRounding_sane 1 0 plainDecls taughtTexts taughtTextOps
    taughtTexts_say taughtTexts_short (by decide) plainDecls_ordinary (by decide +kernel) (by decide +kernel) taughtTextOps_trained
    (taught_of_check (by decide +kernel)) (by decide) (by decide) (by decide) noHeap noHeap_holds
  obtain ⟨r1, r2⟩ := hr useCalls (fun os hos => inOrder_mono (fun ev g => ⟨g.1.1, g.1.2.1⟩) os (useCalls_inOrder os hos)) none
  obtain ⟨k, m, k1, k2, k3⟩ := r2 f (.inl useCalls_one) hfair
  obtain ⟨m', m1, _, m3, m4⟩ := r1 (firstSteps f k) (.inl useCalls_one)
  rw [k1] at m1; cases m1
  obtain ⟨h2, h3, f1, f2, _, f4⟩ := m4 k3
  refine ⟨s0, s, h0, h1, k, m, h2, h3, e0, e1, k1, k3, f1, f2, ?_⟩
  have := f4 ⟨?_, ?_, ?_⟩
  · exact List.Perm.eq_nil this
  · have : doneIn exactRounding (TextWorld.init (makeTree 1 0 plainDecls)) (taughtTexts.map .call) = [0] := by decide +kernel
    rw [this]
    decide
  · simp only [useCalls, List.forall_mem_cons, Tidy, EventOp.MadeOnce, Recipe.Once, setAt]
    simp
  · intro x hx
    obtain ⟨i, hi⟩ := List.mem_iff_getElem?.mp hx
    obtain ⟨os, o1, o2⟩ := m3 i x hi
    exact right_answered os (useCalls_inOrder os (List.mem_of_getElem? o1)) o2

end BeTree
