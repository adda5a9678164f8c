import Verif.Lemmas.Machine
/-
If only one thread makes calls with texts, nobody gets in its way.
-/
namespace BeTree

variable {α : Type}

/-- the program reads the global variable only after it has written it; `b`: it has written it -/
def Thread.Fed : Bool → Thread α → Prop
  | _, .done _ => True
  | b, .malloc k => ∀ x, (k x).Fed b
  | b, .free _ k => k.Fed b
  | b, .touch _ k => k.Fed b
  | _, .fault _ => True
  | _, .put _ k => k.Fed true
  | b, .get k => b = true ∧ ∀ r, (k r).Fed b

theorem Fed.done (a : α) (b : Bool) : (Thread.done a).Fed b := trivial

theorem Fed.mem {β : Type} {b : Bool} {p : Mem β} {f : β → Thread α} (h : ∀ a, (f a).Fed b) : (p.thread f).Fed b := by
  induction p with
  | done a => exact h a
  | malloc k ih => exact fun b => ih b
  | free b k ih => exact ih
  | touch b k ih => exact ih
  | fault e => trivial

theorem Fed.bind {β : Type} {p : Thread β} {f : β → Thread α} (h : ∀ a b, (f a).Fed b) : ∀ {b : Bool}, p.Fed b → (p.bind f).Fed b := by
  induction p with
  | done a => intro b _; exact h a b
  | malloc k ih => intro b hp x; exact ih x (hp x)
  | free b k ih => intro b hp; exact ih hp
  | touch b k ih => intro b hp; exact ih hp
  | fault e => intro b _; trivial
  | put e k ih => intro b hp; exact ih hp
  | get k ih => intro b hp; exact ⟨hp.1, fun r => ih r (hp.2 r)⟩

theorem Fed.parse {b : Bool} {text : Str} {f : ParsedEvent → Thread α} (h : ∀ e, (f e).Fed true) : (parseShared text f).Fed b := by
  unfold parseShared
  refine Fed.mem fun r => ?_
  cases r with
  | none => trivial
  | some e =>
    refine ⟨rfl, fun r => ?_⟩
    cases r with
    | none => trivial
    | some e => exact h e

theorem threadSearches_fed (geo : GeoTest) (w : MemWorld) : ∀ (texts : List Str) (rep : Report) (r : ReportImg) (b : Bool),
    (w.threadSearches geo texts rep r).Fed b := by
  intro texts
  induction texts with
  | nil => intro rep r b; trivial
  | cons t ts ih =>
    intro rep r b
    unfold MemWorld.threadSearches
    exact Fed.parse fun e => Fed.mem fun a => Fed.bind (fun _ _ => Fed.done _ _) (ih _ _ _)

theorem threadRun_fed (H : Str → Nat) (geo : GeoTest) (R : Rounding) (s : Session) (os : List EventOp) : ∀ (objs : List (Option ObjMem)) (b : Bool),
    (s.threadRun H geo R objs os).Fed b := by
  induction os with
  | nil => intro objs b; trivial
  | cons o os ih =>
    intro objs b
    unfold Session.threadRun
    refine Fed.bind (fun a b => Fed.bind (fun _ _ => Fed.done _ _) (ih _ _)) ?_
    unfold Session.threadStep
    refine Fed.mem fun _ => Fed.bind (fun a b => Fed.mem fun _ => Fed.mem fun _ => Fed.done _ _) ?_
    cases o with
    | user u =>
      cases u with
      | tree o => trivial
      | search texts => exact Fed.mem fun r => Fed.bind (fun a b => Fed.mem fun _ => Fed.done _ _) (threadSearches_fed geo _ _ _ _ _)
      | «exists» text => exact Fed.parse fun e => Fed.mem fun _ => trivial
    | _ => exact Fed.mem fun _ => trivial

/-- only thread `j` uses the global variable, and it writes before it reads -/
def One (j : Nat) (b : Bool) (m : Machine α) : Prop := ∀ i p, m.threads[i]? = some p → if i = j then p.Fed b else p.Quiet

theorem one_step {j : Nat} {b : Bool} {m : Machine α} {tr : List (Nat × Act)} (h : One j b m) (hb : b = true → lastPut tr = some j) (i : Nat) :
    (∀ A x B, (m.step i).1 = A ++ (x, .get) :: B → lastPut (tr ++ A) = some x) ∧
    ∀ m', (m.step i).2 = .ok m' → ∃ b', One j b' m' ∧ (b' = true → lastPut (tr ++ (m.step i).1) = some j) := by
  have key : ∀ (b' : Bool) (q : Thread α) (m' : Machine α), m'.threads = m.threads.set i q → (if i = j then q.Fed b' else q.Quiet) →
      (i ≠ j → b' = b) → One j b' m' := by
    intro b' q m' hm hq hbb k p hp
    rw [hm, List.getElem?_set] at hp
    by_cases hk : i = k
    · subst hk
      rw [if_pos rfl] at hp
      split at hp
      · cases hp; exact hq
      · cases hp
    · rw [if_neg hk] at hp
      have := h k p hp
      by_cases hkj : k = j
      · subst hkj
        rw [hbb hk]
        exact this
      · rw [if_neg hkj] at this ⊢
        exact this
  have nil : ∀ {A B : List (Nat × Act)} {x : Nat × Act}, [] ≠ A ++ x :: B := by intro A B x h; cases A <;> cases h
  have one : ∀ {A B : List (Nat × Act)} {x y : Nat × Act}, [y] = A ++ x :: B → A = [] ∧ x = y := by
    intro A B x y h
    cases A with
    | nil => cases h; exact ⟨rfl, rfl⟩
    | cons a A => exact absurd (List.cons.inj h).2 nil
  unfold Machine.step
  cases hp : m.threads[i]? with
  | none =>
    refine ⟨fun A x B e => absurd e nil, ?_⟩
    rintro m' ⟨⟩
    exact ⟨b, h, by simpa using hb⟩
  | some p =>
    have hq := h i p hp
    cases p with
    | done a =>
      refine ⟨fun A x B e => absurd e nil, ?_⟩
      rintro m' ⟨⟩
      exact ⟨b, h, by simpa using hb⟩
    | malloc k =>
      refine ⟨fun A x B e => (by cases (one e).2), ?_⟩
      rintro m' ⟨⟩
      refine ⟨b, key b _ _ rfl ?_ fun _ => rfl, fun x => by rw [lastPut_other _ _ _ (by simp)]; exact hb x⟩
      split at hq
      · rw [if_pos ‹_›]; exact hq _
      · rw [if_neg ‹_›]; exact hq _
    | free c k =>
      refine ⟨fun A x B e => (by cases (one e).2), ?_⟩
      intro m' hm
      dsimp only at hm ⊢
      split at hm
      · cases hm
        refine ⟨b, key b _ _ rfl ?_ fun _ => rfl, fun x => by rw [lastPut_other _ _ _ (by simp)]; exact hb x⟩
        split at hq
        · rw [if_pos ‹_›]; exact hq
        · rw [if_neg ‹_›]; exact hq
      · cases hm
    | touch c k =>
      refine ⟨fun A x B e => (by cases (one e).2), ?_⟩
      intro m' hm
      dsimp only at hm ⊢
      split at hm
      · cases hm
        refine ⟨b, key b _ _ rfl ?_ fun _ => rfl, fun x => by rw [lastPut_other _ _ _ (by simp)]; exact hb x⟩
        split at hq
        · rw [if_pos ‹_›]; exact hq
        · rw [if_neg ‹_›]; exact hq
      · cases hm
    | fault e => exact ⟨fun A x B e => absurd e nil, by rintro m' ⟨⟩⟩
    | put e k =>
      split at hq
      · rename_i hij
        subst hij
        refine ⟨fun A x B e => (by cases (one e).2), ?_⟩
        rintro m' ⟨⟩
        exact ⟨true, key true _ _ rfl (by rw [if_pos rfl]; exact hq) (fun x => absurd rfl x), fun _ => lastPut_put _ _⟩
      · exact hq.elim
    | get k =>
      split at hq
      · rename_i hij
        subst hij
        refine ⟨fun A x B e => ?_, ?_⟩
        · obtain ⟨rfl, e2⟩ := one e
          cases e2
          rw [List.append_nil]
          exact hb hq.1
        · rintro m' ⟨⟩
          exact ⟨b, key b _ _ rfl (by rw [if_pos rfl]; exact hq.2 _) (fun _ => rfl), fun x => by rw [lastPut_other _ _ _ (by simp)]; exact hb x⟩
      · exact hq.elim

theorem one_run (sched : List Nat) : ∀ {j : Nat} {b : Bool} {m : Machine α} {tr : List (Nat × Act)}, One j b m → (b = true → lastPut tr = some j) →
    ∀ A x B, (m.run sched).1 = A ++ (x, .get) :: B → lastPut (tr ++ A) = some x := by
  induction sched with
  | nil => intro j b m tr _ _ A x B e; cases A <;> cases e
  | cons i is ih =>
    intro j b m tr h hb A x B e
    obtain ⟨h1, h2⟩ := one_step h hb i
    unfold Machine.run at e
    cases hs : m.step i with
    | mk a r =>
      rw [hs] at e h1 h2
      cases r with
      | error y => exact h1 A x B e
      | ok m' =>
        obtain ⟨b', k1, k2⟩ := h2 m' rfl
        have e : a ++ (m'.run is).1 = A ++ (x, .get) :: B := e
        rcases List.append_eq_append_iff.mp e with ⟨C, rfl, hC⟩ | ⟨C, rfl, hC⟩
        · have := ih k1 k2 C x B hC
          rwa [List.append_assoc] at this
        · cases C with
          | nil =>
            have := ih k1 k2 [] x B hC.symm
            simpa using this
          | cons c C =>
            obtain ⟨rfl, hC⟩ := List.cons.inj hC
            exact h1 A x C rfl

/-- one thread with texts: no interleaving is excluded -/
theorem exclusive_of_one {H : Str → Nat} {geo : GeoTest} {R : Rounding} {s : Session} {heap : Heap} {root : Option ParsedEvent}
    {calls : List (List EventOp)} (j : Nat) (h : ∀ (i : Nat) (os : List EventOp), calls[i]? = some os → i ≠ j → ∀ o ∈ os, o.Own) (sched : List Nat) :
    Exclusive ((s.machine H geo R heap root calls).run sched).1 := by
  intro A x B e
  have := one_run sched (j := j) (b := false) (m := s.machine H geo R heap root calls) (tr := []) ?_ (by simp) A x B e
  · simpa using this
  · intro i p hp
    simp only [Session.machine, List.getElem?_map, Option.map_eq_some_iff] at hp
    obtain ⟨os, hos, rfl⟩ := hp
    split
    · exact threadRun_fed H geo R s os [] false
    · rename_i hij
      exact threadRun_quiet H geo R s os [] (h i os hos hij)

end BeTree
