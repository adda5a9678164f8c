import Verif.Lemmas.Concurrent
import Verif.Lemmas.ConfigMemory
/-
Machines: what holds after every schedule.
-/
namespace BeTree
open Spec

variable {α : Type}

theorem lastPut_put (tr : List (Nat × Act)) (i : Nat) : lastPut (tr ++ [(i, .put)]) = some i := by
  induction tr with
  | nil => rfl
  | cons x tr ih =>
    obtain ⟨j, a⟩ := x
    cases a <;> simp only [List.cons_append, lastPut, ih, Option.getD_some]

theorem lastPut_other (tr : List (Nat × Act)) (i : Nat) (a : Act) (h : a ≠ .put) : lastPut (tr ++ [(i, a)]) = lastPut tr := by
  induction tr with
  | nil => cases a <;> first | rfl | exact absurd rfl h
  | cons x tr ih =>
    obtain ⟨j, b⟩ := x
    cases b <;> simp only [List.cons_append, lastPut, ih]

theorem Exclusive.prefix {A B : List (Nat × Act)} (h : Exclusive (A ++ B)) : Exclusive A := by
  intro X i Y e
  exact h X i (Y ++ B) (by rw [e]; simp)

structure Inv (S F : List Nat) (n0 : Nat) (Qs : Nat → α → List Nat → Prop) (tr : List (Nat × Act)) (m : Machine α)
    (cells : List (List Nat × Option ParsedEvent)) : Prop where
  len : cells.length = m.threads.length
  does : ∀ i p c, m.threads[i]? = some p → cells[i]? = some c → DoesT S p c.2 c.1 (Qs i)
  heap : Holds m.heap (cells.flatMap Prod.fst ++ (S ++ F))
  root : ∀ i c, lastPut tr = some i → cells[i]? = some c → m.root = c.2
  mine : ∀ i c, cells[i]? = some c → ∀ b ∈ c.1, (i, .alloc b) ∈ tr
  acts : ∀ i a b, (i, a) ∈ tr → a.block = some b → (i, .alloc b) ∈ tr ∨ (a = .use b ∧ b ∈ S)
  fresh : ∀ i b, (i, .alloc b) ∈ tr → n0 ≤ b ∧ b < m.heap.next
  one : ∀ i j b, (i, .alloc b) ∈ tr → (j, .alloc b) ∈ tr → i = j

theorem set_does {S : List Nat} {Qs : Nat → α → List Nat → Prop} {ps : List (Thread α)} {cells : List (List Nat × Option ParsedEvent)}
    (h : ∀ i p c, ps[i]? = some p → cells[i]? = some c → DoesT S p c.2 c.1 (Qs i)) {i : Nat} {p : Thread α} {c : List Nat × Option ParsedEvent}
    (hp : DoesT S p c.2 c.1 (Qs i)) :
    ∀ j q d, (ps.set i p)[j]? = some q → (cells.set i c)[j]? = some d → DoesT S q d.2 d.1 (Qs j) := by
  intro j q d h1 h2
  by_cases hij : i = j
  · subst hij
    rw [List.getElem?_set_self'] at h1 h2
    cases hx : ps[i]? with
    | none => rw [hx] at h1; cases h1
    | some x =>
      cases hy : cells[i]? with
      | none => rw [hy] at h2; cases h2
      | some y =>
        rw [hx] at h1; rw [hy] at h2
        cases h1; cases h2
        exact hp
  · rw [List.getElem?_set_ne hij] at h1 h2
    exact h j q d h1 h2

theorem Inv.step {S F : List Nat} {n0 : Nat} {Qs : Nat → α → List Nat → Prop} {tr : List (Nat × Act)} {m : Machine α}
    {cells : List (List Nat × Option ParsedEvent)} (h : Inv S F n0 Qs tr m cells) (hn0 : n0 ≤ m.heap.next)
    (i : Nat) (hex : Exclusive (tr ++ (m.step i).1)) :
    ∃ m' cells', (m.step i).2 = .ok m' ∧ Inv S F n0 Qs (tr ++ (m.step i).1) m' cells' ∧ m.heap.next ≤ m'.heap.next := by
  unfold Machine.step at hex ⊢
  cases hp : m.threads[i]? with
  | none => exact ⟨m, cells, rfl, by simpa using h, Nat.le_refl _⟩
  | some p =>
    rw [hp] at hex
    have hlt : i < cells.length := by
      rw [h.len]
      obtain ⟨h1, _⟩ := List.getElem?_eq_some_iff.mp hp
      exact h1
    have hc : cells[i]? = some cells[i] := List.getElem?_eq_getElem hlt
    obtain ⟨R, f1, f2⟩ := set_flat Prod.fst cells i cells[i] hc
    have hd := h.does i p cells[i] hp hc
    generalize cells[i] = c at hc f1 hd
    obtain ⟨L, g⟩ := c
    dsimp only at f1 hd
    have hother : ∀ {c' : List Nat × Option ParsedEvent} {j : Nat} {d}, (cells.set i c')[j]? = some d → (i = j ∧ d = c') ∨ (i ≠ j ∧ cells[j]? = some d) := by
      intro c' j d hj
      by_cases hij : i = j
      · subst hij
        rw [List.getElem?_set_self hlt] at hj
        exact Or.inl ⟨rfl, (Option.some.inj hj).symm⟩
      · rw [List.getElem?_set_ne hij] at hj
        exact Or.inr ⟨hij, hj⟩
    cases p with
    | done a => exact ⟨m, cells, rfl, by simpa using h, Nat.le_refl _⟩
    | fault e => exact hd.elim
    | malloc k =>
      have hnew : m.heap.next ∉ cells.flatMap Prod.fst ++ (S ++ F) := fun hm => Nat.lt_irrefl _ (h.heap.2.2 _ hm)
      have hd' := hd m.heap.next (fun hm => hnew (by
          refine List.mem_append_left _ (f1.mem_iff.mpr ?_); simp [hm])) (fun hm => hnew (by simp [hm]))
      refine ⟨_, cells.set i (m.heap.next :: L, g), rfl, ?_, Nat.le_succ _⟩
      refine ⟨by simp [h.len], set_does h.does hd', ?_, ?_, ?_, ?_, ?_, ?_⟩
      · refine (malloc_holds h.heap).perm ?_
        refine List.Perm.trans ?_ ((f2 (m.heap.next :: L, g)).symm.append_right _)
        refine ((f1.append_right _).cons _).trans ?_
        blocks
      · intro j d hl hj
        rw [lastPut_other _ _ _ (by simp)] at hl
        rcases hother hj with ⟨rfl, rfl⟩ | ⟨_, hj⟩
        · exact h.root i (L, g) hl hc
        · exact h.root j d hl hj
      · intro j d hj b hb
        rcases hother hj with ⟨rfl, rfl⟩ | ⟨_, hj⟩
        · rcases List.mem_cons.mp hb with rfl | hb
          · simp
          · exact List.mem_append_left _ (h.mine i (L, g) hc b hb)
        · exact List.mem_append_left _ (h.mine j d hj b hb)
      · intro j a b hm hb
        rcases List.mem_append.mp hm with hm | hm
        · exact (h.acts j a b hm hb).imp_left (List.mem_append_left _)
        · rw [List.mem_singleton] at hm
          cases hm
          cases hb
          exact Or.inl (by simp)
      · intro j b hm
        rcases List.mem_append.mp hm with hm | hm
        · exact ⟨(h.fresh j b hm).1, Nat.lt_succ_of_lt (h.fresh j b hm).2⟩
        · rw [List.mem_singleton] at hm
          cases hm
          exact ⟨hn0, Nat.lt_succ_self _⟩
      · intro j l b h1 h2
        rcases List.mem_append.mp h1 with h1 | h1 <;> rcases List.mem_append.mp h2 with h2 | h2
        · exact h.one j l b h1 h2
        · rw [List.mem_singleton] at h2
          cases h2
          exact absurd (h.fresh j _ h1).2 (Nat.lt_irrefl _)
        · rw [List.mem_singleton] at h1
          cases h1
          exact absurd (h.fresh l _ h2).2 (Nat.lt_irrefl _)
        · rw [List.mem_singleton] at h1 h2
          cases h1; cases h2; rfl
    | free b k =>
      obtain ⟨L', hL, hd'⟩ := hd
      have hh : Holds m.heap (b :: (L' ++ R ++ (S ++ F))) := by
        refine h.heap.perm ((f1.append_right _).trans (((hL.append_right _).append_right _).trans ?_))
        blocks
      obtain ⟨g1, g2⟩ := free_holds hh
      have hbL : b ∈ L := hL.mem_iff.mpr (by simp)
      dsimp only
      rw [if_pos g1]
      refine ⟨_, cells.set i (L', g), rfl, ?_, Nat.le_refl _⟩
      refine ⟨by simp [h.len], set_does h.does hd', ?_, ?_, ?_, ?_, ?_, ?_⟩
      · exact g2.perm (List.Perm.trans (.refl _) ((f2 (L', g)).symm.append_right _))
      · intro j d hl hj
        rw [lastPut_other _ _ _ (by simp)] at hl
        rcases hother hj with ⟨rfl, rfl⟩ | ⟨_, hj⟩
        · exact h.root i (L, g) hl hc
        · exact h.root j d hl hj
      · intro j d hj c hcm
        rcases hother hj with ⟨rfl, rfl⟩ | ⟨_, hj⟩
        · exact List.mem_append_left _ (h.mine i (L, g) hc c (hL.mem_iff.mpr (by simp [show c ∈ L' from hcm])))
        · exact List.mem_append_left _ (h.mine j d hj c hcm)
      · intro j a c hm hb
        rcases List.mem_append.mp hm with hm | hm
        · exact (h.acts j a c hm hb).imp_left (List.mem_append_left _)
        · rw [List.mem_singleton] at hm
          cases hm
          cases hb
          exact Or.inl (List.mem_append_left _ (h.mine i (L, g) hc b hbL))
      · intro j c hm
        rcases List.mem_append.mp hm with hm | hm
        · exact h.fresh j c hm
        · rw [List.mem_singleton] at hm
          cases hm
      · intro j l c h1 h2
        rcases List.mem_append.mp h1 with h1 | h1 <;> rcases List.mem_append.mp h2 with h2 | h2
        · exact h.one j l c h1 h2
        all_goals first | (rw [List.mem_singleton] at h2; cases h2) | (rw [List.mem_singleton] at h1; cases h1)
    | touch b k =>
      obtain ⟨hb0, hd'⟩ := hd
      have hbl : b ∈ m.heap.live := by
        refine h.heap.1.mem_iff.mpr ?_
        rcases hb0 with hb0 | hb0
        · exact List.mem_append_left _ (f1.mem_iff.mpr (by simp [hb0]))
        · simp [hb0]
      dsimp only
      rw [if_pos hbl]
      refine ⟨_, cells.set i (L, g), rfl, ?_, Nat.le_refl _⟩
      have hset : cells.set i (L, g) = cells := by
        refine List.ext_getElem? fun j => ?_
        by_cases hij : i = j
        · subst hij; rw [List.getElem?_set_self hlt, hc]
        · rw [List.getElem?_set_ne hij]
      refine ⟨by simp [h.len], set_does h.does hd', ?_, ?_, ?_, ?_, ?_, ?_⟩
      · rw [hset]; exact h.heap
      · intro j d hl hj
        rw [lastPut_other _ _ _ (by simp)] at hl
        rw [hset] at hj
        exact h.root j d hl hj
      · intro j d hj c hcm
        rw [hset] at hj
        exact List.mem_append_left _ (h.mine j d hj c hcm)
      · intro j a c hm hb
        rcases List.mem_append.mp hm with hm | hm
        · exact (h.acts j a c hm hb).imp_left (List.mem_append_left _)
        · rw [List.mem_singleton] at hm
          cases hm
          cases hb
          rcases hb0 with hb0 | hb0
          · exact Or.inl (List.mem_append_left _ (h.mine i (L, g) hc b hb0))
          · exact Or.inr ⟨rfl, hb0⟩
      · intro j c hm
        rcases List.mem_append.mp hm with hm | hm
        · exact h.fresh j c hm
        · rw [List.mem_singleton] at hm
          cases hm
      · intro j l c h1 h2
        rcases List.mem_append.mp h1 with h1 | h1 <;> rcases List.mem_append.mp h2 with h2 | h2
        · exact h.one j l c h1 h2
        all_goals first | (rw [List.mem_singleton] at h2; cases h2) | (rw [List.mem_singleton] at h1; cases h1)
    | put e k =>
      refine ⟨_, cells.set i (L, some e), rfl, ?_, Nat.le_refl _⟩
      refine ⟨by simp [h.len], set_does h.does hd, ?_, ?_, ?_, ?_, ?_, ?_⟩
      · exact h.heap.perm ((f1.append_right _).trans ((f2 (L, some e)).symm.append_right _))
      · intro j d hl hj
        rw [lastPut_put] at hl
        cases hl
        rcases hother hj with ⟨_, rfl⟩ | ⟨hne, _⟩
        · rfl
        · exact absurd rfl hne
      · intro j d hj c hcm
        rcases hother hj with ⟨rfl, rfl⟩ | ⟨_, hj⟩
        · exact List.mem_append_left _ (h.mine i (L, g) hc c hcm)
        · exact List.mem_append_left _ (h.mine j d hj c hcm)
      · intro j a c hm hb
        rcases List.mem_append.mp hm with hm | hm
        · exact (h.acts j a c hm hb).imp_left (List.mem_append_left _)
        · rw [List.mem_singleton] at hm
          cases hm
          cases hb
      · intro j c hm
        rcases List.mem_append.mp hm with hm | hm
        · exact h.fresh j c hm
        · rw [List.mem_singleton] at hm
          cases hm
      · intro j l c h1 h2
        rcases List.mem_append.mp h1 with h1 | h1 <;> rcases List.mem_append.mp h2 with h2 | h2
        · exact h.one j l c h1 h2
        all_goals first | (rw [List.mem_singleton] at h2; cases h2) | (rw [List.mem_singleton] at h1; cases h1)
    | get k =>
      obtain ⟨e, he, hd'⟩ := hd
      subst he
      have hroot : m.root = some e := h.root i (L, some e) (hex tr i [] rfl) hc
      dsimp only
      rw [hroot]
      refine ⟨_, cells.set i (L, some e), rfl, ?_, Nat.le_refl _⟩
      have hset : cells.set i (L, some e) = cells := by
        refine List.ext_getElem? fun j => ?_
        by_cases hij : i = j
        · subst hij; rw [List.getElem?_set_self hlt, hc]
        · rw [List.getElem?_set_ne hij]
      refine ⟨by simp [h.len], set_does h.does hd', ?_, ?_, ?_, ?_, ?_, ?_⟩
      · rw [hset]; exact h.heap
      · intro j d hl hj
        rw [lastPut_other _ _ _ (by simp)] at hl
        rw [hset] at hj
        exact hroot.symm.trans (h.root j d hl hj)
      · intro j d hj c hcm
        rw [hset] at hj
        exact List.mem_append_left _ (h.mine j d hj c hcm)
      · intro j a c hm hb
        rcases List.mem_append.mp hm with hm | hm
        · exact (h.acts j a c hm hb).imp_left (List.mem_append_left _)
        · rw [List.mem_singleton] at hm
          cases hm
          cases hb
      · intro j c hm
        rcases List.mem_append.mp hm with hm | hm
        · exact h.fresh j c hm
        · rw [List.mem_singleton] at hm
          cases hm
      · intro j l c h1 h2
        rcases List.mem_append.mp h1 with h1 | h1 <;> rcases List.mem_append.mp h2 with h2 | h2
        · exact h.one j l c h1 h2
        all_goals first | (rw [List.mem_singleton] at h2; cases h2) | (rw [List.mem_singleton] at h1; cases h1)

theorem Inv.run {S F : List Nat} {n0 : Nat} {Qs : Nat → α → List Nat → Prop} (sched : List Nat) : ∀ {tr : List (Nat × Act)} {m : Machine α}
    {cells : List (List Nat × Option ParsedEvent)}, Inv S F n0 Qs tr m cells → n0 ≤ m.heap.next →
    Exclusive (tr ++ (m.run sched).1) →
    ∃ m' cells', (m.run sched).2 = .ok m' ∧ Inv S F n0 Qs (tr ++ (m.run sched).1) m' cells' := by
  induction sched with
  | nil =>
    intro tr m cells h _ _
    exact ⟨m, cells, rfl, by simpa [Machine.run] using h⟩
  | cons i is ih =>
    intro tr m cells h hn0 hex
    have hpre : Exclusive (tr ++ (m.step i).1) := by
      unfold Machine.run at hex
      cases hs : m.step i with
      | mk a r =>
        rw [hs] at hex
        cases r with
        | error e => exact hex
        | ok m' =>
          dsimp only at hex
          rw [← List.append_assoc] at hex
          exact hex.prefix
    obtain ⟨m', cells', e1, h', hle⟩ := h.step hn0 i hpre
    cases hs : m.step i with
    | mk a r =>
      rw [hs] at e1 h' hpre
      dsimp only at e1 h'
      subst e1
      have hrun : m.run (i :: is) = (a ++ (m'.run is).1, (m'.run is).2) := by
        simp only [Machine.run, hs]
      rw [hrun] at hex ⊢
      dsimp only at hex ⊢
      rw [← List.append_assoc] at hex ⊢
      exact ih h' (Nat.le_trans hn0 hle) hex

/-! ### threads that do not use the global variable -/

/-- the program neither writes nor reads the global variable -/
def Thread.Quiet : Thread α → Prop
  | .done _ => True
  | .malloc k => ∀ b, (k b).Quiet
  | .free _ k => k.Quiet
  | .touch _ k => k.Quiet
  | .fault _ => True
  | .put _ _ => False
  | .get _ => False

theorem _root_.BeTree.EventOp.Own.reads {o : EventOp} (h : o.Own) : o.Reads := by
  cases o <;> first | trivial | cases h

theorem Quiet.mem {β : Type} {p : Mem β} {f : β → Thread α} (h : ∀ a, (f a).Quiet) : (p.thread f).Quiet := by
  induction p with
  | done a => exact h a
  | malloc k ih => exact fun b => ih b
  | free b k ih => exact ih
  | touch b k ih => exact ih
  | fault e => trivial

theorem Quiet.bind {β : Type} {p : Thread β} {f : β → Thread α} (hp : p.Quiet) (h : ∀ a, (f a).Quiet) : (p.bind f).Quiet := by
  induction p with
  | done a => exact h a
  | malloc k ih => exact fun b => ih b (hp b)
  | free b k ih => exact ih hp
  | touch b k ih => exact ih hp
  | fault e => trivial
  | put e k ih => exact hp.elim
  | get k ih => exact hp.elim

theorem threadRun_quiet (H : Str → Nat) (geo : GeoTest) (R : Rounding) (s : Session) (os : List EventOp) : ∀ (objs : List (Option ObjMem)),
    (∀ o ∈ os, o.Own) → (s.threadRun H geo R objs os).Quiet := by
  induction os with
  | nil => intro objs _; trivial
  | cons o os ih =>
    intro objs h
    unfold Session.threadRun
    refine Quiet.bind ?_ fun a => Quiet.bind (ih a.1 fun x hx => h x (by simp [hx])) fun b => trivial
    have ho := h o (by simp)
    unfold Session.threadStep
    refine Quiet.mem fun _ => Quiet.bind ?_ fun a => Quiet.mem fun _ => Quiet.mem fun _ => trivial
    cases o with
    | user u => exact ho.elim
    | _ => exact Quiet.mem fun _ => trivial

theorem machine_step_quiet {m : Machine α} (h : ∀ p ∈ m.threads, p.Quiet) (i : Nat) :
    (∀ x ∈ (m.step i).1, x.2 ≠ .get) ∧ ∀ m', (m.step i).2 = .ok m' → ∀ p ∈ m'.threads, p.Quiet := by
  have key : ∀ q : Thread α, q.Quiet → ∀ p ∈ m.threads.set i q, p.Quiet := by
    intro q hq p hp
    rcases List.mem_or_eq_of_mem_set hp with hp | rfl
    · exact h p hp
    · exact hq
  unfold Machine.step
  cases hp : m.threads[i]? with
  | none => exact ⟨by simp, by rintro m' ⟨⟩; exact h⟩
  | some p =>
    have hq := h p (List.mem_of_getElem? hp)
    cases p with
    | done a => exact ⟨by simp, by rintro m' ⟨⟩; exact h⟩
    | malloc k => exact ⟨by simp, by rintro m' ⟨⟩; exact key _ (hq _)⟩
    | free b k =>
      refine ⟨by simp, ?_⟩
      intro m' hm
      dsimp only at hm
      split at hm
      · cases hm; exact key _ hq
      · cases hm
    | touch b k =>
      refine ⟨by simp, ?_⟩
      intro m' hm
      dsimp only at hm
      split at hm
      · cases hm; exact key _ hq
      · cases hm
    | fault e => exact ⟨by simp, by rintro m' ⟨⟩⟩
    | put e k => exact hq.elim
    | get k => exact hq.elim

theorem machine_run_quiet (sched : List Nat) : ∀ {m : Machine α}, (∀ p ∈ m.threads, p.Quiet) → ∀ x ∈ (m.run sched).1, x.2 ≠ .get := by
  induction sched with
  | nil => intro m _ x hx; cases hx
  | cons i is ih =>
    intro m h x hx
    obtain ⟨h1, h2⟩ := machine_step_quiet h i
    unfold Machine.run at hx
    cases hs : m.step i with
    | mk a r =>
      rw [hs] at hx h1 h2
      cases r with
      | error e => exact h1 x hx
      | ok m' =>
        rcases List.mem_append.mp hx with hx | hx
        · exact h1 x hx
        · exact ih (h2 m' rfl) x hx

theorem exclusive_of_quiet {tr : List (Nat × Act)} (h : ∀ x ∈ tr, x.2 ≠ .get) : Exclusive tr := by
  rintro A i B rfl
  exact absurd rfl (h (i, .get) (by simp))

/-! ### every thread comes to its end -/

theorem machine_run_append (a b : List Nat) : ∀ {m m' : Machine α}, (m.run a).2 = .ok m' → (m.run (a ++ b)) = ((m.run a).1 ++ (m'.run b).1, (m'.run b).2) := by
  induction a with
  | nil => intro m m' h; cases h; rfl
  | cons i is ih =>
    intro m m' h
    rw [List.cons_append]
    have e : ∀ l, m.run (i :: l) = (match m.step i with
      | (a, .error e) => (a, .error e)
      | (a, .ok m') => (a ++ (m'.run l).1, (m'.run l).2)) := fun l => rfl
    rw [e] at h ⊢
    rw [e]
    cases hs : m.step i with
    | mk x r =>
      rw [hs] at h
      cases r with
      | error e => cases h
      | ok m1 =>
        dsimp only at h ⊢
        rw [ih h, List.append_assoc]

theorem machine_run_append_error (a b : List Nat) : ∀ {m : Machine α} {e : Fault}, (m.run a).2 = .error e → (m.run (a ++ b)).2 = .error e := by
  induction a with
  | nil => intro m e h; cases h
  | cons i is ih =>
    intro m e h
    simp only [List.cons_append]
    unfold Machine.run at h ⊢
    split at h
    · rename_i x e' he
      exact h
    · exact ih h

theorem machine_run_one (m : Machine α) (i : Nat) : (m.run [i]).2 = (m.step i).2 := by
  unfold Machine.run
  cases m.step i with
  | mk a r => cases r <;> rfl

theorem machine_step_other {m m' : Machine α} {i j : Nat} (h : (m.step i).2 = .ok m') (hij : i ≠ j) : m'.threads[j]? = m.threads[j]? := by
  unfold Machine.step at h
  split at h <;> dsimp only at h <;> try (split at h) <;> (first | (cases h; first | rfl | exact List.getElem?_set_ne hij) | cases h)
  all_goals first | (cases h; first | rfl | exact List.getElem?_set_ne hij) | cases h

theorem machine_step_length {m m' : Machine α} {i : Nat} (h : (m.step i).2 = .ok m') : m'.threads.length = m.threads.length := by
  unfold Machine.step at h
  split at h <;> dsimp only at h <;> try (split at h)
  all_goals first | (cases h; first | rfl | exact List.length_set) | cases h

theorem machine_run_length {sched : List Nat} : ∀ {m m' : Machine α}, (m.run sched).2 = .ok m' → m'.threads.length = m.threads.length := by
  induction sched with
  | nil => intro m m' h; cases h; rfl
  | cons i is ih =>
    intro m m' h
    unfold Machine.run at h
    split at h
    · cases h
    · rename_i a m1 e
      have e1 := machine_step_length (m := m) (m' := m1) (i := i) (by rw [e])
      rw [← e1]
      exact ih h

theorem all_finish {m : Machine α} {f : Nat → Nat} {ms : Nat → Machine α} (h0 : ms 0 = m) (hms : ∀ k, ((ms k).step (f k)).2 = .ok (ms (k + 1)))
    (hfair : ∀ i < m.threads.length, ∀ k, ∃ k' ≥ k, f k' = i) : ∃ k, ∀ p ∈ (ms k).threads, p.isDone = true := by
  have hlen : ∀ k, (ms k).threads.length = m.threads.length := by
    intro k
    induction k with
    | zero => rw [h0]
    | succ k ih => rw [machine_step_length (hms k), ih]
  have hdone : ∀ (i k : Nat) (a : α), (ms k).threads[i]? = some (Thread.done a) → ∀ k' ≥ k, (ms k').threads[i]? = some (Thread.done a) := by
    intro i k a h k' hk
    induction k', hk using Nat.le_induction with
    | base => exact h
    | succ k' _ ih =>
      by_cases hi : f k' = i
      · have := hms k'
        rw [hi] at this
        unfold Machine.step at this
        rw [ih] at this
        rw [← Except.ok.inj this]
        exact ih
      · rw [machine_step_other (hms k') hi, ih]
  have hwait : ∀ (i : Nat) (p : Thread α) (d k : Nat), (ms k).threads[i]? = some p → f (k + d) = i → ∃ k' ≥ k, f k' = i ∧ (ms k').threads[i]? = some p := by
    intro i p d
    induction d with
    | zero => intro k h hf; exact ⟨k, Nat.le_refl _, hf, h⟩
    | succ d ih =>
      intro k h hf
      by_cases hi : f k = i
      · exact ⟨k, Nat.le_refl _, hi, h⟩
      · obtain ⟨k', h1, h2, h3⟩ := ih (k + 1) (by rw [machine_step_other (hms k) hi, h]) (by rw [← hf]; congr 1; omega)
        exact ⟨k', by omega, h2, h3⟩
  have hone : ∀ i : Nat, i < m.threads.length → ∀ (p : Thread α) (k : Nat), (ms k).threads[i]? = some p → ∃ k' a, (ms k').threads[i]? = some (Thread.done a) := by
    intro i hi p
    induction p with
    | done a => intro k h; exact ⟨k, a, h⟩
    | malloc c ih =>
      intro k h
      obtain ⟨k1, hk1, hf⟩ := hfair i hi k
      obtain ⟨k2, _, hf2, h2⟩ := hwait i _ (k1 - k) k h (by rw [← hf]; congr 1; omega)
      have hs := hms k2
      rw [hf2] at hs
      unfold Machine.step at hs
      rw [h2] at hs
      refine ih (ms k2).heap.next (k2 + 1) ?_
      rw [← Except.ok.inj hs]
      exact List.getElem?_set_self (by rw [hlen]; exact hi)
    | free b c ih =>
      intro k h
      obtain ⟨k1, hk1, hf⟩ := hfair i hi k
      obtain ⟨k2, _, hf2, h2⟩ := hwait i _ (k1 - k) k h (by rw [← hf]; congr 1; omega)
      have hs := hms k2
      rw [hf2] at hs
      unfold Machine.step at hs
      rw [h2] at hs
      dsimp only at hs
      split at hs
      · refine ih (k2 + 1) ?_
        rw [← Except.ok.inj hs]
        exact List.getElem?_set_self (by rw [hlen]; exact hi)
      · cases hs
    | touch b c ih =>
      intro k h
      obtain ⟨k1, hk1, hf⟩ := hfair i hi k
      obtain ⟨k2, _, hf2, h2⟩ := hwait i _ (k1 - k) k h (by rw [← hf]; congr 1; omega)
      have hs := hms k2
      rw [hf2] at hs
      unfold Machine.step at hs
      rw [h2] at hs
      dsimp only at hs
      split at hs
      · refine ih (k2 + 1) ?_
        rw [← Except.ok.inj hs]
        exact List.getElem?_set_self (by rw [hlen]; exact hi)
      · cases hs
    | fault e =>
      intro k h
      obtain ⟨k1, hk1, hf⟩ := hfair i hi k
      obtain ⟨k2, _, hf2, h2⟩ := hwait i _ (k1 - k) k h (by rw [← hf]; congr 1; omega)
      have hs := hms k2
      rw [hf2] at hs
      unfold Machine.step at hs
      rw [h2] at hs
      cases hs
    | put e c ih =>
      intro k h
      obtain ⟨k1, hk1, hf⟩ := hfair i hi k
      obtain ⟨k2, _, hf2, h2⟩ := hwait i _ (k1 - k) k h (by rw [← hf]; congr 1; omega)
      have hs := hms k2
      rw [hf2] at hs
      unfold Machine.step at hs
      rw [h2] at hs
      refine ih (k2 + 1) ?_
      rw [← Except.ok.inj hs]
      exact List.getElem?_set_self (by rw [hlen]; exact hi)
    | get c ih =>
      intro k h
      obtain ⟨k1, hk1, hf⟩ := hfair i hi k
      obtain ⟨k2, _, hf2, h2⟩ := hwait i _ (k1 - k) k h (by rw [← hf]; congr 1; omega)
      have hs := hms k2
      rw [hf2] at hs
      unfold Machine.step at hs
      rw [h2] at hs
      refine ih (ms k2).root (k2 + 1) ?_
      rw [← Except.ok.inj hs]
      exact List.getElem?_set_self (by rw [hlen]; exact hi)
  have hall : ∀ n ≤ m.threads.length, ∃ k, ∀ i < n, ∃ a, (ms k).threads[i]? = some (Thread.done a) := by
    intro n
    induction n with
    | zero => intro _; exact ⟨0, by simp⟩
    | succ n ih =>
      intro hn
      obtain ⟨k, hk⟩ := ih (by omega)
      obtain ⟨k', a, hk'⟩ := hone n (by omega) m.threads[n] 0 (by rw [h0]; exact List.getElem?_eq_getElem (by omega))
      refine ⟨max k k', fun i hi => ?_⟩
      by_cases he : i = n
      · subst he
        exact ⟨a, hdone i k' a hk' _ (by omega)⟩
      · obtain ⟨a', ha'⟩ := hk i (by omega)
        exact ⟨a', hdone i k a' ha' _ (by omega)⟩
  obtain ⟨k, hk⟩ := hall _ (Nat.le_refl _)
  refine ⟨k, fun p hp => ?_⟩
  obtain ⟨i, hi⟩ := List.mem_iff_getElem?.mp hp
  obtain ⟨hlt, _⟩ := List.getElem?_eq_some_iff.mp hi
  obtain ⟨a, ha⟩ := hk i (by rw [hlen] at hlt; exact hlt)
  rw [ha] at hi
  cases hi
  rfl

theorem finish {m : Machine α} {f : Nat → Nat} (hrun : ∀ k, ∃ m', (m.run (firstSteps f k)).2 = .ok m')
    (hfair : ∀ i < m.threads.length, ∀ k, ∃ k' ≥ k, f k' = i) :
    ∃ k m', (m.run (firstSteps f k)).2 = .ok m' ∧ ∀ p ∈ m'.threads, p.isDone = true := by
  obtain ⟨ms, hms⟩ := Classical.axiomOfChoice hrun
  have h0 : ms 0 = m := (Except.ok.inj (hms 0)).symm
  have hst : ∀ k, ((ms k).step (f k)).2 = .ok (ms (k + 1)) := by
    intro k
    have := hms (k + 1)
    have e : firstSteps f (k + 1) = firstSteps f k ++ [f k] := by
      rw [firstSteps, List.range_succ, List.map_append, List.map_singleton]; rfl
    rw [e, machine_run_append _ _ (hms k)] at this
    rw [← machine_run_one]
    exact this
  obtain ⟨k, hk⟩ := all_finish h0 hst hfair
  exact ⟨k, ms k, hms k, hk⟩

/-! ### threads that search -/

/-- a step does what it says -/
theorem machine_step_live {m m' : Machine α} {i : Nat} (hn : ∀ b ∈ m.heap.live, b < m.heap.next) (h : (m.step i).2 = .ok m') :
    (∀ b ∈ m'.heap.live, b < m'.heap.next) ∧ m'.heap.live = liveAfter m.heap.live (m.step i).1 ∧
      ((m.step i).1 = [] ∨ ∃ x, (m.step i).1 = [x] ∧ x.2.Allowed m.heap.live) := by
  unfold Machine.step at h ⊢
  split at h <;> dsimp only at h ⊢
  · cases h; exact ⟨hn, rfl, .inl rfl⟩
  · cases h; exact ⟨hn, rfl, .inl rfl⟩
  · cases h
    refine ⟨?_, rfl, .inr ⟨_, rfl, fun hb => Nat.lt_irrefl _ (hn _ hb)⟩⟩
    intro b hb
    rcases List.mem_cons.mp hb with rfl | hb
    · exact Nat.lt_succ_self _
    · exact Nat.lt_succ_of_lt (hn b hb)
  · split at h
    · rename_i hb
      cases h
      exact ⟨fun c hc => hn c (List.mem_of_mem_erase hc), rfl, .inr ⟨_, rfl, hb⟩⟩
    · cases h
  · split at h
    · rename_i hb
      cases h
      exact ⟨hn, rfl, .inr ⟨_, rfl, hb⟩⟩
    · cases h
  · cases h
  · cases h; exact ⟨hn, rfl, .inr ⟨_, rfl, trivial⟩⟩
  · cases h; exact ⟨hn, rfl, .inr ⟨_, rfl, trivial⟩⟩

theorem liveAfter_append (tr tr' : List (Nat × Act)) : ∀ live, liveAfter live (tr ++ tr') = liveAfter (liveAfter live tr) tr' := by
  induction tr with
  | nil => intro _; rfl
  | cons x tr ih =>
    intro live
    obtain ⟨i, a⟩ := x
    cases a <;> exact ih _

theorem machine_run_live (sched : List Nat) : ∀ {m m' : Machine α}, (∀ b ∈ m.heap.live, b < m.heap.next) → (m.run sched).2 = .ok m' →
    m'.heap.live = liveAfter m.heap.live (m.run sched).1 ∧
      ∀ A i a B, (m.run sched).1 = A ++ (i, a) :: B → a.Allowed (liveAfter m.heap.live A) := by
  induction sched with
  | nil =>
    intro m m' _ h
    cases h
    refine ⟨rfl, ?_⟩
    intro A i a B e
    cases A <;> cases e
  | cons j is ih =>
    intro m m' hn h
    have hs := fun m1 => machine_step_live (m := m) (m' := m1) (i := j) hn
    unfold Machine.run at h ⊢
    split at h
    · cases h
    · rename_i tr m1 e
      rw [e] at hs
      obtain ⟨k1, k2, k3⟩ := hs m1 rfl
      obtain ⟨l1, l2⟩ := ih k1 h
      dsimp only at k1 k2 k3 h ⊢
      refine ⟨?_, ?_⟩
      · rw [liveAfter_append, ← k2]; exact l1
      · intro A i a B hA
        rcases k3 with rfl | ⟨x, rfl, hx⟩
        · rw [List.nil_append] at hA
          rw [show m.heap.live = m1.heap.live from k2.symm]
          exact l2 A i a B hA
        · cases A with
          | nil => cases hA; exact hx
          | cons y A =>
            obtain ⟨rfl, hB⟩ := List.cons.inj hA
            have := l2 A i a B hB
            rw [k2, ← liveAfter_append] at this
            exact this

/-- what the threads have in the end, if each has its events and more -/
theorem cells_objs {C : Prop} {cells : List (List Nat × Option ParsedEvent)} {ps : List (Thread (List (Option ObjMem) × List Answer))}
    (hl : cells.length = ps.length)
    (h : ∀ (i : Nat) c p, cells[i]? = some c → ps[i]? = some p → ∃ L', c.1.Perm (heldBlocks p.objs ++ L') ∧ (C → L' = [])) :
    ∃ N, (cells.flatMap Prod.fst).Perm (heldBlocks (ps.flatMap Thread.objs) ++ N) ∧ (C → N = []) := by
  induction cells generalizing ps with
  | nil =>
    cases ps with
    | nil => exact ⟨[], .refl _, fun _ => rfl⟩
    | cons y ys => simp at hl
  | cons x xs ih =>
    cases ps with
    | nil => simp at hl
    | cons y ys =>
      obtain ⟨L', k1, k2⟩ := h 0 x y rfl rfl
      obtain ⟨N, k3, k4⟩ := ih (ps := ys) (by simpa using hl) fun i => h (i + 1)
      refine ⟨L' ++ N, ?_, fun hc => by rw [k2 hc, k4 hc]; rfl⟩
      have e : heldBlocks ((y :: ys).flatMap Thread.objs) = heldBlocks y.objs ++ heldBlocks (ys.flatMap Thread.objs) := by
        rw [List.flatMap_cons]; exact List.flatMap_append
      rw [e, List.flatMap_cons]
      refine (k1.append k3).trans ?_
      generalize heldBlocks y.objs = A, heldBlocks (ys.flatMap Thread.objs) = B
      blocks

theorem machine_undisturbed {H : Str → Nat} {geo : GeoTest} {R : Rounding} {s : Session} {st wt gn : Objs} {dn F : List Nat}
    (hw : Owned s.subs.mem st wt gn dn) {h1 : Heap} (hh : Holds h1 (s.shared st wt ++ F)) (calls : List (List EventOp)) (alone : List (EventPlain × List Answer))
    (hreads : ∀ os ∈ calls, ∀ o ∈ os, o.Reads)
    (halone : List.Forall₂ (fun os a => (EventPlain.mk s.subs.mem.world []).run geo R os = .ok a) calls alone) (root : Option ParsedEvent)
    (sched : List Nat) (hex : Exclusive ((s.machine H geo R h1 root calls).run sched).1) :
    ∃ m, ((s.machine H geo R h1 root calls).run sched).2 = .ok m ∧
      Undisturbed s h1 calls alone ((s.machine H geo R h1 root calls).run sched).1 m ∧
      ((∀ p ∈ m.threads, p.isDone = true) → ∃ N, Holds m.heap (heldBlocks (m.threads.flatMap Thread.objs) ++ N ++ (s.shared st wt ++ F)) ∧
        ((∀ os ∈ calls, Tidy os) → (∀ a ∈ alone, ∀ x ∈ a.2, Answered x) → N = [])) := by
  have hlen := halone.length_eq
  let Qs : Nat → List (Option ObjMem) × List Answer → List Nat → Prop := fun i x M => ∃ os a, calls[i]? = some os ∧ alone[i]? = some a ∧
    x.2 = a.2 ∧ ∃ L', ThreadLeft a.1 x.1 M L' ∧ ((setAt os).Nodup → (∀ o ∈ os, o.MadeOnce) → (∀ y ∈ a.2, Answered y) → L' = [])
  have hnd : (s.shared st wt).Nodup := (List.nodup_append.mp hh.2.1).1
  have hinit : Inv (s.shared st wt) F h1.next Qs [] (s.machine H geo R h1 root calls) (calls.map fun _ => ([], none)) := by
    refine ⟨by simp [Session.machine], ?_, ?_, ?_, ?_, ?_, ?_, ?_⟩
    · intro i p c hp hc
      simp only [Session.machine, List.getElem?_map] at hp hc
      cases ho : calls[i]? with
      | none => rw [ho] at hp; cases hp
      | some os =>
        rw [ho] at hp hc
        cases hp; cases hc
        have hi : i < alone.length := by
          obtain ⟨h, _⟩ := List.getElem?_eq_some_iff.mp ho
          omega
        have ha := List.getElem?_eq_getElem hi
        generalize alone[i] = a at ha
        have hr := forall₂_at halone ho ha
        obtain ⟨w', as⟩ := a
        have hd := threadRun_does (H := H) (objs := []) (L := []) (X := []) (g := none) hw os (by intro o ho; cases ho)
          (hreads os (List.mem_of_getElem? ho)) (by simpa using hnd) (by simp) hr
        refine hd.mono ?_
        rintro x M ⟨e, L', hl, hc⟩
        exact ⟨os, (w', as), ho, ha, e, L', hl, fun k1 k2 k3 => hc k1 (by intro x _ o ho; cases ho) k2 k3⟩
    · have : (calls.map fun _ => (([] : List Nat), (none : Option ParsedEvent))).flatMap Prod.fst = [] := by
        simp
      rw [this]
      exact hh
    · intro i c hl; cases hl
    · intro i c hc b hb
      rw [List.getElem?_map] at hc
      cases ho : calls[i]? with
      | none => rw [ho] at hc; cases hc
      | some os => rw [ho] at hc; cases hc; cases hb
    · intro i a b hm; cases hm
    · intro i b hm; cases hm
    · intro i j b hm; cases hm
  obtain ⟨m, cells, e1, hI⟩ := hinit.run sched (Nat.le_refl _) (by simpa using hex)
  rw [List.nil_append] at hI
  have hthreads : ∀ (i : Nat) x, m.threads[i]? = some (Thread.done x) → ∃ c os a, cells[i]? = some c ∧ calls[i]? = some os ∧ alone[i]? = some a ∧
      x.2 = a.2 ∧ ∃ L', ThreadLeft a.1 x.1 c.1 L' ∧ ((setAt os).Nodup → (∀ o ∈ os, o.MadeOnce) → (∀ y ∈ a.2, Answered y) → L' = []) := by
    intro i x hx
    have hi : i < cells.length := by
      obtain ⟨h, _⟩ := List.getElem?_eq_some_iff.mp hx
      rw [hI.len]; exact h
    have hc := List.getElem?_eq_getElem hi
    obtain ⟨M, hM, os, a, k1, k2, k3, L', k4, k5⟩ := hI.does i _ _ hx hc
    exact ⟨cells[i], os, a, hc, k1, k2, k3, L', ⟨k4.objs, k4.ok, hM.trans k4.blocks⟩, k5⟩
  obtain ⟨v1, v2⟩ := machine_run_live sched (m := s.machine H geo R h1 root calls) (m' := m)
    (fun b hb => hh.2.2 b (hh.1.mem_iff.mp hb)) e1
  have hleft : (∀ p ∈ m.threads, p.isDone = true) → ∃ N, (cells.flatMap Prod.fst).Perm (heldBlocks (m.threads.flatMap Thread.objs) ++ N) ∧
      ((∀ os ∈ calls, Tidy os) ∧ (∀ a ∈ alone, ∀ x ∈ a.2, Answered x) → N = []) := by
    intro hdone
    refine cells_objs hI.len fun i c p hc hp => ?_
    have := hdone p (List.mem_of_getElem? hp)
    cases p with
    | done x =>
      obtain ⟨c', os, a, k0, k1, k2, k3, L', k4, k5⟩ := hthreads i x hp
      rw [hc] at k0
      cases k0
      refine ⟨L', k4.blocks, fun ⟨htidy, hans⟩ => ?_⟩
      have ho := List.mem_of_getElem? k1
      exact k5 (htidy os ho).1 (htidy os ho).2 (hans a (List.mem_of_getElem? k2))
    | _ => cases this
  refine ⟨m, e1, ⟨?_, v2, v1, ?_, ?_, ?_⟩, ?_⟩
  · intro i x hx
    obtain ⟨c, os, a, _, _, k2, k3, L', k4, _⟩ := hthreads i x hx
    exact ⟨a, k2, k3, k4.objs⟩
  · rintro ⟨i, a⟩ hx ⟨j, a'⟩ hy hne b hb hb'
    have hS : ∀ c ∈ s.shared st wt, c < h1.next := fun c hc => hh.2.2 c (by simp [hc])
    have hobj : ∀ c ∈ s.shared st wt, c = s.tree ∨ (∃ q ∈ s.subs.mem.objs, c ∈ q.2.blocks) ∨ c ∈ s.nodes.root.blocks ∨ c ∈ s.config.img.blocks := by
      intro c hc
      simp only [Session.shared, Session.rest, List.mem_append, List.mem_cons] at hc
      rcases hc with hc | hc | hc | hc
      · obtain ⟨q, hq, hcs⟩ := List.mem_flatMap.mp hc
        exact .inr (.inl ⟨q, hw.objs.mem_iff.mpr (List.mem_append_left _ hq), hcs⟩)
      · exact .inl hc
      · exact .inr (.inr (.inl hc))
      · exact .inr (.inr (.inr hc))
    rcases hI.acts i a b hx hb with k1 | ⟨k1, k2⟩ <;> rcases hI.acts j a' b hy hb' with k3 | ⟨k3, k4⟩
    · exact absurd (hI.one i j b k1 k3) hne
    · exact absurd (hS b k4) (Nat.not_lt.mpr (hI.fresh i b k1).1)
    · exact absurd (hS b k2) (Nat.not_lt.mpr (hI.fresh j b k3).1)
    · exact ⟨k1, k3, hobj b k2⟩
  · exact ⟨_, hI.heap.1.trans (List.Perm.append_left _ hh.1.symm)⟩
  · intro hdone htidy hans
    obtain ⟨N, k1, k2⟩ := hleft hdone
    rw [k2 ⟨htidy, hans⟩, List.append_nil] at k1
    have e : objsBlocks (m.threads.flatMap Thread.objs) = heldBlocks (m.threads.flatMap Thread.objs) := by
      refine congrArg (fun f => List.flatMap f _) (funext fun o => ?_)
      cases o <;> rfl
    rw [e]
    exact hI.heap.1.trans (k1.append hh.1.symm)
  · intro hdone
    obtain ⟨N, k1, k2⟩ := hleft hdone
    exact ⟨N, hI.heap.perm (k1.append_right _), fun htidy hans => k2 ⟨htidy, hans⟩⟩

end BeTree
