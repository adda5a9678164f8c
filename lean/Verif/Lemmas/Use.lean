import Verif.Spec.Use
import Verif.Props.EventObj
import Verif.Props.EndToEnd
import Verif.Props.Report
/-
What a program that only asks is answered by a tree whose searches are exact.
-/
namespace BeTree
open Spec

/-- searches with good events are exact -/
def Exactly (geo : GeoTest) (decls : List (Str × Decl × Bool)) (tqs : List TextReq) (Good : List EventVar → Prop) (t : Tree) : Prop :=
  ∀ ev, Good ev → ∀ rep, ∃ r ids, t.search geo ev rep = .ok r ∧ (r.getD rep).subs = rep.subs ++ ids ∧ Found geo decls tqs ev r.isSome ids

theorem Exactly.exists {geo : GeoTest} {decls : List (Str × Decl × Bool)} {tqs : List TextReq} {Good : List EventVar → Prop} {t : Tree}
    (h : Exactly geo decls tqs Good t) {ev : List EventVar} (hg : Good ev) (hm : HasMandatory decls ev) :
    ∃ b, t.exists geo ev = .ok b ∧ (b = true ↔ ∃ q ∈ tqs, TrueOn geo q ev) := by
  obtain ⟨r, ids, h1, h2, h3⟩ := h ev hg .empty
  have hs := h3.accepted.mpr hm
  obtain ⟨rep', rfl⟩ := Option.isSome_iff_exists.mp hs
  obtain ⟨b, k1, k2⟩ := C06_exists_iff_search geo t ev rep' h1
  refine ⟨b, k1, k2.trans ?_⟩
  have e : rep'.subs = ids := h2
  rw [e]
  constructor
  · intro hne
    obtain ⟨id, hid⟩ := List.exists_mem_of_ne_nil _ hne
    obtain ⟨q, hq, _, ht⟩ := (h3.exact hs id).mp hid
    exact ⟨q, hq, ht⟩
  · rintro ⟨q, hq, ht⟩ hn
    have := (h3.exact hs q.id).mpr ⟨q, hq, rfl, ht⟩
    rw [hn] at this
    cases this

/-- what searches have left of the events of a program -/
def Kept (c : Config) : Option EventObj → Option EventObj → Prop
  | none, none => True
  | some a, some b => List.Forall₂ (SlotCov c) a b
  | _, _ => False

theorem forall₂_set {α β : Type} {P : α → β → Prop} : ∀ {l : List α} {l' : List β} (k : Nat) {a : α} {b : β}, List.Forall₂ P l l' → P a b →
    List.Forall₂ P (l.set k a) (l'.set k b)
  | _, _, _, _, _, .nil, _ => .nil
  | _, _, 0, _, _, .cons _ h, hp => .cons hp h
  | _, _, k + 1, _, _, .cons h0 h, hp => .cons h0 (forall₂_set k h hp)

/-- an event that a search has left as it was covered -/
theorem forall₂_set_right {α β : Type} {P : α → β → Prop} : ∀ {l : List α} {l' : List β} (k : Nat) {a : α} {b : β}, List.Forall₂ P l l' →
    l[k]? = some a → P a b → List.Forall₂ P l (l'.set k b)
  | _, _, _, _, _, .nil, h, _ => by simp at h
  | _, _, 0, _, _, .cons _ h, h0, hp => by
    simp only [List.getElem?_cons_zero, Option.some.injEq] at h0
    subst h0
    exact .cons hp h
  | _, _, k + 1, _, _, .cons h0 h, ha, hp => .cons h0 (forall₂_set_right k h (by simpa using ha) hp)

theorem forall₂_get {α β : Type} {P : α → β → Prop} : ∀ {l : List α} {l' : List β} {k : Nat} {a : α}, List.Forall₂ P l l' →
    l[k]? = some a → ∃ b, l'[k]? = some b ∧ P a b
  | _, _, _, _, .nil, h => by simp at h
  | _, _, 0, _, .cons hp _, h0 => by
    simp only [List.getElem?_cons_zero, Option.some.injEq] at h0
    subst h0
    exact ⟨_, rfl, hp⟩
  | _, _, k + 1, _, .cons _ h, ha => by simpa using forall₂_get h (by simpa using ha)

section
variable {geo : GeoTest} {R : Rounding} {decls : List (Str × Decl × Bool)} {tqs : List TextReq} {Good : List EventVar → Prop} {t : TextWorld}

theorem kept_get {c : Config} {shelf objs : List (Option EventObj)} (hk : List.Forall₂ (Kept c) shelf objs) {k : Nat} {o : EventObj}
    (h : shelf[k]? = some (some o)) : ∃ o', heldAt objs k = .ok o' ∧ List.Forall₂ (SlotCov c) o o' := by
  obtain ⟨b, h1, h2⟩ := forall₂_get hk h
  cases b with
  | none => exact h2.elim
  | some b => exact ⟨b, by simp only [heldAt, h1], h2⟩

/-- a search with an event that was used before -/
theorem searchObj_kept (hf : FewStrings t.tree.cfg) {o o' : EventObj} (hc : List.Forall₂ (SlotCov t.tree.cfg) o o') (rep : Report) {r : Option Report}
    (h : t.tree.search geo (held o) rep = .ok r) :
    ∃ o2, t.tree.searchObj geo o' rep = .ok (r, o2) ∧ List.Forall₂ (SlotCov t.tree.cfg) o o2 := by
  have hs := slots_same (CfgExt.refl _) hc (fun v _ _ l _ x _ y _ _ h1 h2 => ⟨h1, h2⟩)
  have h1 := (searchObj_slots geo t.tree o o' hs rep).1.trans (searchObj_event geo t.tree o rep)
  rw [show o.filterMap id = held o from rfl, h] at h1
  cases hx : t.tree.searchObj geo o' rep with
  | error e => rw [hx] at h1; cases h1
  | ok a =>
    obtain ⟨r', o2⟩ := a
    rw [hx] at h1
    have e : r' = r := by injection h1
    subst e
    refine ⟨o2, rfl, ?_⟩
    unfold Tree.searchObj at hx
    split at hx
    · cases hx
    · rename_i l hl
      have := slots_left (CfgExt.refl _) (few_len hf) hc hl
      split at hx
      · split at hx
        · cases hx
        · cases hx; exact this
      · cases hx; exact this

theorem existsObj_kept (hf : FewStrings t.tree.cfg) {o o' : EventObj} (hc : List.Forall₂ (SlotCov t.tree.cfg) o o') {b : Bool}
    (h : t.tree.exists geo (held o) = .ok b) :
    ∃ o2, t.tree.existsObj geo o' = .ok (b, o2) ∧ List.Forall₂ (SlotCov t.tree.cfg) o o2 := by
  have hs := slots_same (CfgExt.refl _) hc (fun v _ _ l _ x _ y _ _ h1 h2 => ⟨h1, h2⟩)
  have h1 := (searchObj_slots geo t.tree o o' hs .empty).2.trans (existsObj_event geo t.tree o)
  rw [show o.filterMap id = held o from rfl, h] at h1
  cases hx : t.tree.existsObj geo o' with
  | error e => rw [hx] at h1; cases h1
  | ok a =>
    obtain ⟨r', o2⟩ := a
    rw [hx] at h1
    have e : r' = b := by injection h1
    subst e
    refine ⟨o2, rfl, ?_⟩
    unfold Tree.existsObj at hx
    split at hx
    · cases hx
    · rename_i l hl
      have := slots_left (CfgExt.refl _) (few_len hf) hc hl
      split at hx
      · cases hx
      · cases hx; exact this

/-- searches with texts -/
theorem searches_found (hx : Exactly geo decls tqs Good t.tree) : ∀ (texts : List Str) (rep : Report),
    (∀ text ∈ texts, ∃ ev, SaysEvent text ev ∧ Good ev) →
    ∃ evs rep' oks ids, t.tree.searches geo texts rep = .ok (rep', oks) ∧ List.Forall₂ SaysEvent texts evs ∧ rep'.subs = rep.subs ++ ids ∧
      AllFound geo decls tqs evs oks ids := by
  intro texts
  induction texts with
  | nil => intro rep _; exact ⟨[], rep, [], [], rfl, .nil, by simp, rfl, rfl⟩
  | cons text texts ih =>
    intro rep h
    obtain ⟨ev, hev, hg⟩ := h text (by simp)
    obtain ⟨r, mine, h1, h2, h3⟩ := hx ev hg rep
    obtain ⟨evs, rep', oks, ids, k1, k2, k3, k4⟩ := ih (r.getD rep) (fun x hm => h x (by simp [hm]))
    refine ⟨ev :: evs, rep', r.isSome :: oks, mine ++ ids, ?_, .cons hev k2, by rw [k3, h2, List.append_assoc],
      r.isSome, oks, mine, ids, rfl, rfl, h3, k4⟩
    simp only [Tree.searches, (C46_readable_event geo t.tree text ev hev rep).1, h1]
    cases r with
    | none => dsimp only; rw [show rep = (none : Option Report).getD rep from rfl, k1]; rfl
    | some r => dsimp only; rw [show r = (some r : Option Report).getD rep from rfl, k1]; rfl

/-- searches with events -/
theorem objSearches_found (hx : Exactly geo decls tqs Good t.tree) (hf : FewStrings t.tree.cfg) {shelf : List (Option EventObj)} :
    ∀ (ks : List Nat) (objs : List (Option EventObj)) (rep : Report), List.Forall₂ (Kept t.tree.cfg) shelf objs →
    (∀ k ∈ ks, ∃ ev, Holding shelf k ev ∧ Good ev) →
    ∃ objs' evs rep' oks ids, (EventPlain.mk t objs).searches geo ks rep = .ok (⟨t, objs'⟩, rep', oks) ∧ List.Forall₂ (Kept t.tree.cfg) shelf objs' ∧
      List.Forall₂ (Holding shelf) ks evs ∧ rep'.subs = rep.subs ++ ids ∧ AllFound geo decls tqs evs oks ids := by
  intro ks
  induction ks with
  | nil => intro objs rep hk _; exact ⟨objs, [], rep, [], [], rfl, hk, .nil, by simp, rfl, rfl⟩
  | cons k ks ih =>
    intro objs rep hk h
    obtain ⟨ev, ⟨o, ho, rfl⟩, hg⟩ := h k (by simp)
    obtain ⟨r, mine, h1, h2, h3⟩ := hx _ hg rep
    obtain ⟨o', ho', hc⟩ := kept_get hk ho
    obtain ⟨o2, h4, hc2⟩ := searchObj_kept hf hc rep h1
    obtain ⟨objs', evs, rep', oks, ids, k1, k2, k3, k4, k5⟩ := ih (objs.set k (some o2)) (r.getD rep)
      (forall₂_set_right k hk ho hc2) (fun x hm => h x (by simp [hm]))
    refine ⟨objs', held o :: evs, rep', r.isSome :: oks, mine ++ ids, ?_, k2, .cons ⟨o, ho, rfl⟩ k3, by rw [k4, h2, List.append_assoc],
      r.isSome, oks, mine, ids, rfl, rfl, h3, k5⟩
    simp only [EventPlain.searches, ho', h4, k1]

/-- one call -/
theorem step_right (hx : Exactly geo decls tqs Good t.tree) (hf : FewStrings t.tree.cfg) (hn : t.tree.cfg.domains.length = decls.length)
    {shelf objs : List (Option EventObj)} (hk : List.Forall₂ (Kept t.tree.cfg) shelf objs)
    (hl : ∀ o, some o ∈ shelf → o.length = decls.length) (o : EventOp) (ho : InOrder Good decls shelf o) :
    ∃ objs' as, (EventPlain.mk t objs).step geo R o = .ok (⟨t, objs'⟩, as) ∧ Right geo decls tqs shelf o as ∧
      List.Forall₂ (Kept t.tree.cfg) (shelfAfter decls.length shelf o) objs' ∧
      ∀ e, some e ∈ shelfAfter decls.length shelf o → e.length = decls.length := by
  cases o with
  | user o =>
    cases o with
    | tree o => exact ho.elim
    | search texts =>
      obtain ⟨evs, rep', oks, ids, k1, k2, k3, k4⟩ := searches_found hx texts .empty ho
      refine ⟨objs, [.report rep' oks], ?_, ⟨evs, rep', oks, k2, rfl, ?_⟩, hk, hl⟩
      · simp only [EventPlain.step, TextWorld.userStep, k1]
      · rw [k3]; exact k4
    | «exists» text =>
      obtain ⟨ev, hev, hg, hm⟩ := ho
      obtain ⟨b, k1, k2⟩ := hx.exists hg hm
      refine ⟨objs, [.found b], ?_, ⟨ev, b, hev, rfl, k2⟩, hk, hl⟩
      simp only [EventPlain.step, TextWorld.userStep, (C46_readable_event geo t.tree text ev hev .empty).2, k1]
  | make =>
    refine ⟨objs ++ [some t.tree.makeEvent], [], rfl, rfl, ?_, ?_⟩
    · refine List.rel_append (R := Kept t.tree.cfg) hk (.cons ?_ .nil)
      rw [Tree.makeEvent, hn]
      exact slotCov_refl _ _
    · intro e he
      simp only [shelfAfter, List.mem_append, List.mem_singleton, Option.some.injEq] at he
      rcases he with he | rfl
      · exact hl e he
      · simp
  | set k i name m =>
    obtain ⟨⟨v, hv⟩, ⟨_, e, he, rfl⟩, hi⟩ := ho
    obtain ⟨e', he', hc⟩ := kept_get hk he
    have hle := hl e (List.mem_of_getElem? he)
    have hlen : i < e'.length := by rw [← List.Forall₂.length_eq hc, hle]; exact hi
    refine ⟨objs.set k (some (e'.set i (some ⟨name, v⟩))), [], ?_, rfl, ?_, ?_⟩
    · simp only [EventPlain.step, hv, he', setVariable, putAt, if_pos hlen]
    · simp only [shelfAfter, hv, he]
      exact forall₂_set k hk (forall₂_set i hc ⟨rfl, fun _ _ => .refl _⟩)
    · simp only [shelfAfter, hv, he]
      intro x hx
      rcases List.mem_or_eq_of_mem_set hx with h | h
      · exact hl x h
      · cases h; simpa using hle
  | search ks =>
    obtain ⟨objs', evs, rep', oks, ids, k1, k2, k3, k4, k5⟩ := objSearches_found hx hf ks objs .empty hk ho
    refine ⟨objs', [.report rep' oks], ?_, ⟨evs, rep', oks, k3, rfl, ?_⟩, k2, hl⟩
    · simp only [EventPlain.step, k1]
    · rw [k4]; exact k5
  | «exists» k =>
    obtain ⟨_, ⟨e, he, rfl⟩, hg, hm⟩ := ho
    obtain ⟨b, k1, k2⟩ := hx.exists hg hm
    obtain ⟨e', he', hc⟩ := kept_get hk he
    obtain ⟨o2, h4, hc2⟩ := existsObj_kept hf hc k1
    refine ⟨objs.set k (some o2), [.found b], ?_, ⟨_, b, ⟨e, he, rfl⟩, rfl, k2⟩, forall₂_set_right k hk he hc2, hl⟩
    simp only [EventPlain.step, he', h4]
  | free k =>
    obtain ⟨_, e, he, rfl⟩ := ho
    obtain ⟨e', he', hc⟩ := kept_get hk he
    refine ⟨objs.set k none, [], ?_, rfl, forall₂_set k hk trivial, ?_⟩
    · simp only [EventPlain.step, he']
    · intro x hx
      rcases List.mem_or_eq_of_mem_set hx with h | h
      · exact hl x h
      · cases h
  | loose name m =>
    obtain ⟨v, hv⟩ := ho
    refine ⟨objs, [], ?_, rfl, hk, hl⟩
    simp only [EventPlain.step, hv]

/-- all calls -/
theorem run_right (hx : Exactly geo decls tqs Good t.tree) (hf : FewStrings t.tree.cfg) (hn : t.tree.cfg.domains.length = decls.length) :
    ∀ (os : List EventOp) {shelf objs : List (Option EventObj)}, List.Forall₂ (Kept t.tree.cfg) shelf objs →
    (∀ o, some o ∈ shelf → o.length = decls.length) → AllInOrder Good decls shelf os →
    ∃ a, (EventPlain.mk t objs).run geo R os = .ok a ∧ AllRight geo decls tqs shelf os a.2 := by
  intro os
  induction os with
  | nil => intro shelf objs _ _ _; exact ⟨_, rfl, rfl⟩
  | cons o os ih =>
    intro shelf objs hk hl ho
    obtain ⟨objs', as, h1, h2, h3, h4⟩ := step_right (R := R) hx hf hn hk hl o ho.1
    obtain ⟨a, k1, k2⟩ := ih h3 h4 ho.2
    refine ⟨(a.1, as ++ a.2), ?_, as, a.2, rfl, h2, k2⟩
    simp only [EventPlain.run, h1, k1]

/-- all threads -/
theorem alone_right (hx : Exactly geo decls tqs Good t.tree) (hf : FewStrings t.tree.cfg) (hn : t.tree.cfg.domains.length = decls.length) :
    ∀ (calls : List (List EventOp)), (∀ os ∈ calls, AllInOrder Good decls [] os) →
    ∃ alone, List.Forall₂ (fun os a => (EventPlain.mk t []).run geo R os = .ok a) calls alone ∧
      List.Forall₂ (fun os a => AllRight geo decls tqs [] os a.2) calls alone := by
  intro calls
  induction calls with
  | nil => intro _; exact ⟨[], .nil, .nil⟩
  | cons os calls ih =>
    intro h
    obtain ⟨a, k1, k2⟩ := run_right (R := R) hx hf hn os (shelf := []) (objs := []) .nil (by simp) (h os (by simp))
    obtain ⟨alone, k3, k4⟩ := ih fun o ho => h o (by simp [ho])
    exact ⟨a :: alone, .cons k1 k3, .cons k2 k4⟩

theorem inOrder_reads {Good : List EventVar → Prop} : ∀ (os : List EventOp) {shelf : List (Option EventObj)}, AllInOrder Good decls shelf os →
    ∀ o ∈ os, o.Reads := by
  intro os
  induction os with
  | nil => intro _ _ o ho; cases ho
  | cons o os ih =>
    intro shelf h x hx
    rcases List.mem_cons.mp hx with rfl | hx
    · have := h.1
      cases x with
      | user u => cases u <;> first | exact this.elim | trivial
      | _ => trivial
    · exact ih h.2 x hx

/-- searches with complete events are not refused -/
theorem allFound_true : ∀ {evs : List (List EventVar)} {oks : List Bool} {ids : List Nat}, AllFound geo decls tqs evs oks ids →
    (∀ ev ∈ evs, HasMandatory decls ev) → false ∉ oks := by
  intro evs
  induction evs with
  | nil => intro oks ids h _; rw [h.1]; simp
  | cons ev evs ih =>
    rintro oks ids ⟨ok, oks', mine, rest, rfl, rfl, h1, h2⟩ hm
    have : ok = true := h1.accepted.mpr (hm ev (by simp))
    subst this
    simpa using ih h2 fun e he => hm e (by simp [he])

theorem forall₂_right {α β : Type} {P : α → β → Prop} {l : List α} {l' : List β} (h : List.Forall₂ P l l') : ∀ b ∈ l', ∃ a ∈ l, P a b := by
  induction h with
  | nil => intro b hb; cases hb
  | cons hp _ ih =>
    intro b hb
    rcases List.mem_cons.mp hb with rfl | hb
    · exact ⟨_, by simp, hp⟩
    · obtain ⟨a, ha, hp⟩ := ih b hb
      exact ⟨a, by simp [ha], hp⟩

theorem right_answered : ∀ (os : List EventOp) {shelf : List (Option EventObj)} {as : List Answer},
    AllInOrder (fun ev => Good ev ∧ HasMandatory decls ev) decls shelf os → AllRight geo decls tqs shelf os as → ∀ a ∈ as, Answered a := by
  intro os
  induction os with
  | nil => intro shelf as _ h a ha; rw [show as = [] from h] at ha; cases ha
  | cons o os ih =>
    rintro shelf as hi ⟨a, b, rfl, h1, h2⟩ x hx
    rcases List.mem_append.mp hx with hx | hx
    · cases o with
      | user u =>
        cases u with
        | tree o => exact hi.1.elim
        | search texts =>
          obtain ⟨evs, rep, oks, k1, rfl, k3⟩ := h1
          obtain rfl := List.mem_singleton.mp hx
          refine allFound_true k3 fun ev hev => ?_
          obtain ⟨t, ht, hs⟩ := forall₂_right k1 ev hev
          obtain ⟨ev', k5, _, k6⟩ := hi.1 t ht
          rw [saysEvent_unique hs k5]
          exact k6
        | «exists» text =>
          obtain ⟨ev, b, _, rfl, _⟩ := h1
          obtain rfl := List.mem_singleton.mp hx
          trivial
      | search ks =>
        obtain ⟨evs, rep, oks, k1, rfl, k3⟩ := h1
        obtain rfl := List.mem_singleton.mp hx
        refine allFound_true k3 fun ev hev => ?_
        obtain ⟨k, hk, o, ho, rfl⟩ := forall₂_right k1 ev hev
        obtain ⟨ev', ⟨o', ho', rfl⟩, _, k6⟩ := hi.1 k hk
        rw [ho] at ho'
        cases ho'
        exact k6
      | «exists» k =>
        obtain ⟨ev, b, _, rfl, _⟩ := h1
        obtain rfl := List.mem_singleton.mp hx
        trivial
      | make => rw [show a = [] from h1] at hx; cases hx
      | set k i n m => rw [show a = [] from h1] at hx; cases hx
      | free k => rw [show a = [] from h1] at hx; cases hx
      | loose n m => rw [show a = [] from h1] at hx; cases hx
    · exact ih hi.2 h2 x hx

end

end BeTree
