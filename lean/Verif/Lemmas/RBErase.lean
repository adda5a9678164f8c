import Verif.Model.RBErase
import Verif.Lemmas.RB
import Mathlib.Tactic.Common
/-
Top-down red-black deletion: order, colours and balance.
-/
namespace BeTree.RB
variable {α : Type}

/-! ### the items -/

theorem step_lists (path : List (Frame α)) (f : Option Nat) (q : Frame α) (child : RB α) :
    leftOf (eraseStep path f q child).1 = leftOf (q :: path) ∧ rightOf (eraseStep path f q child).1 = rightOf (q :: path) := by
  unfold eraseStep
  split
  · exact ⟨rfl, rfl⟩
  · obtain ⟨qd, qr, qx, qo⟩ := q
    dsimp only
    split
    · cases qd <;> simp [leftOf, rightOf, toList]
    · split
      · exact ⟨rfl, rfl⟩
      · rename_i p rest
        obtain ⟨pd, pr, px, po⟩ := p
        dsimp only
        split
        · exact ⟨rfl, rfl⟩
        · rename_i sc sx sl sr
          split
          · cases qd <;> cases pd <;> simp [leftOf, rightOf, toList]
          · split
            · rename_i nx nl nr hn
              cases pd
              · simp only [Bool.false_eq_true, if_false] at hn
                subst hn
                cases qd <;> simp [leftOf, rightOf, toList]
              · simp only [if_true] at hn
                subst hn
                cases qd <;> simp [leftOf, rightOf, toList]
            · cases pd <;> cases qd <;> simp [leftOf, rightOf, toList, blacken_toList]

/-- where the item that was found is: below it the descent went left once, and then right -/
def HitAt (path : List (Frame α)) (k : Nat) : Prop :=
  ∃ A fr B, path = A ++ fr :: B ∧ A.length = k ∧ (∀ a ∈ A, a.dir = true) ∧ fr.dir = false

theorem step_hit_self (path : List (Frame α)) (f : Option Nat) (q : Frame α) (child : RB α) (hq : q.dir = false) :
    HitAt (eraseStep path f q child).1 0 := by
  unfold eraseStep
  repeat' split
  all_goals exact ⟨[], _, _, rfl, rfl, by simp, hq⟩

theorem HitAt.cons {path : List (Frame α)} {k : Nat} (h : HitAt path k) {q : Frame α} (hq : q.dir = true) : HitAt (q :: path) (k + 1) := by
  obtain ⟨A, fr, B, rfl, rfl, h1, h2⟩ := h
  exact ⟨q :: A, fr, B, rfl, rfl, fun a ha => by rcases List.mem_cons.mp ha with rfl | ha; exacts [hq, h1 a ha], h2⟩

/-- the node above changes, but not its direction -/
theorem HitAt.swap {p p' : Frame α} {rest : List (Frame α)} {k : Nat} (h : HitAt (p :: rest) k) (hp : p'.dir = p.dir) : HitAt (p' :: rest) k := by
  obtain ⟨A, fr, B, e, rfl, h1, h2⟩ := h
  cases A with
  | nil =>
    simp only [List.nil_append, List.cons.injEq] at e
    obtain ⟨rfl, rfl⟩ := e
    exact ⟨[], p', rest, rfl, rfl, by simp, hp.trans h2⟩
  | cons a A =>
    simp only [List.cons_append, List.cons.injEq] at e
    obtain ⟨rfl, rfl⟩ := e
    exact ⟨p' :: A, fr, B, rfl, rfl, fun a ha => by
      rcases List.mem_cons.mp ha with rfl | ha
      · exact hp.trans (h1 _ (by simp))
      · exact h1 a (by simp [ha]), h2⟩

/-- the node above sinks below another one, in the same direction -/
theorem HitAt.sink {p p' t : Frame α} {rest : List (Frame α)} {k : Nat} (h : HitAt (p :: rest) k) (hp : p'.dir = p.dir) (ht : t.dir = p.dir) :
    HitAt (p' :: t :: rest) (if k = 0 then 0 else k + 1) := by
  obtain ⟨A, fr, B, e, rfl, h1, h2⟩ := h
  cases A with
  | nil =>
    simp only [List.nil_append, List.cons.injEq] at e
    obtain ⟨rfl, rfl⟩ := e
    exact ⟨[], p', t :: rest, rfl, rfl, by simp, hp.trans h2⟩
  | cons a A =>
    simp only [List.cons_append, List.cons.injEq] at e
    obtain ⟨rfl, rfl⟩ := e
    refine ⟨p' :: t :: A, fr, B, rfl, by simp, fun a ha => ?_, h2⟩
    have hd := h1 _ (List.mem_cons_self (a := p) (l := A))
    simp only [List.mem_cons] at ha
    rcases ha with rfl | rfl | ha
    · exact hp.trans hd
    · exact ht.trans hd
    · exact h1 a (by simp [ha])

theorem step_hit {path : List (Frame α)} {k : Nat} (h : HitAt path k) (q : Frame α) (child : RB α) (hq : q.dir = true) :
    ∃ j, (eraseStep path (some k) q child).2 = some j ∧ HitAt (eraseStep path (some k) q child).1 j := by
  unfold eraseStep
  split
  · exact ⟨_, rfl, h.cons hq⟩
  · split
    · refine ⟨_, rfl, ?_⟩
      show HitAt _ (k + 1 + 1)
      refine HitAt.cons (HitAt.cons h ?_) ?_ <;> exact hq
    · split
      · exact ⟨_, rfl, h.cons hq⟩
      · rename_i p rest _
        split
        · exact ⟨_, rfl, h.cons hq⟩
        · rename_i sx sl sr _
          split
          · refine ⟨_, rfl, ?_⟩
            show HitAt _ (k + 1)
            refine HitAt.cons (HitAt.swap h ?_) ?_
            · rfl
            · exact hq
          · split
            · refine ⟨_, rfl, ?_⟩
              have e : (if k = 0 then 1 else k + 2) = (if k = 0 then 0 else k + 1) + 1 := by split <;> rfl
              dsimp only
              rw [e]
              refine HitAt.cons (HitAt.sink h ?_ ?_) ?_
              · rfl
              · rfl
              · exact hq
            · refine ⟨_, rfl, ?_⟩
              have e : (if k = 0 then 1 else k + 2) = (if k = 0 then 0 else k + 1) + 1 := by split <;> rfl
              dsimp only
              rw [e]
              refine HitAt.cons (HitAt.sink h ?_ ?_) ?_
              · rfl
              · rfl
              · exact hq

theorem step_none (path : List (Frame α)) (q : Frame α) (child : RB α) : (eraseStep path none q child).2 = none := by
  unfold eraseStep
  repeat' split
  all_goals rfl

theorem leftOf_append (A B : List (Frame α)) : leftOf (A ++ B) = leftOf B ++ leftOf A := by
  induction A with
  | nil => simp [leftOf]
  | cons a A ih => simp [leftOf, ih]

theorem rightOf_append (A B : List (Frame α)) : rightOf (A ++ B) = rightOf A ++ rightOf B := by
  induction A with
  | nil => simp [rightOf]
  | cons a A ih => simp [rightOf, ih]

theorem rightOf_dirs {A : List (Frame α)} (h : ∀ a ∈ A, a.dir = true) : rightOf A = [] := by
  induction A with
  | nil => rfl
  | cons a A ih => simp [rightOf, h a (by simp), ih (fun b hb => h b (by simp [hb]))]

theorem modify_length {β : Type} (A : List β) (b : β) (B : List β) (g : β → β) : (A ++ b :: B).modify A.length g = A ++ g b :: B := by
  induction A with
  | nil => rfl
  | cons a A ih => simp only [List.cons_append, List.length_cons, List.modify_succ_cons, ih]

/-- taking the last node out -/
theorem eraseEnd_hit {path : List (Frame α)} {k : Nat} (h : HitAt path k) :
    ∃ y R, rightOf path = y :: R ∧ (eraseEnd path (some k)).toList = leftOf path ++ R := by
  obtain ⟨A, fr, B, rfl, rfl, h1, h2⟩ := h
  obtain ⟨fd, fc, fx, fo⟩ := fr
  simp only at h2
  subst h2
  cases A with
  | nil =>
    refine ⟨fx, fo.toList ++ rightOf B, by simp [rightOf], ?_⟩
    simp [eraseEnd, zip_toList, leftOf]
  | cons q A =>
    have hA : rightOf A = [] := rightOf_dirs fun a ha => h1 a (by simp [ha])
    have hq : q.dir = true := h1 q (by simp)
    refine ⟨fx, fo.toList ++ rightOf B, by rw [rightOf_append, rightOf_dirs h1]; simp [rightOf], ?_⟩
    have e : (A ++ ⟨false, fc, fx, fo⟩ :: B).modify A.length (fun fr => { fr with x := q.x }) = A ++ ⟨false, fc, q.x, fo⟩ :: B := by
      exact modify_length _ _ _ _
    simp only [List.cons_append, List.length_cons, eraseEnd, e, zip_toList, leftOf_append, rightOf_append, leftOf, rightOf, hA, hq]
    simp

/-- Two items, of which the second is equal to `data`. -/
theorem CmpOK.lt_of_eq {cmp : α → α → Ordering} (ok : CmpOK cmp) {a x data : α} (h : cmp a x = .lt) (he : cmp x data = .eq) : cmp a data = .lt := by
  rw [← ok.swap, ← ok.congr x data a he, ok.swap]; exact h

theorem CmpOK.gt_of_eq {cmp : α → α → Ordering} (ok : CmpOK cmp) {a x data : α} (h : cmp x a = .lt) (he : cmp x data = .eq) : cmp a data = .gt := by
  rw [ok.swap, ← ok.congr x data a he]; exact h

theorem filter_all {cmp : α → α → Ordering} {data : α} {l : List α} {o : Ordering} (h : ∀ x ∈ l, cmp x data = o) (ho : o ≠ .eq) :
    l.filter (fun x => cmp x data != .eq) = l := by
  rw [List.filter_eq_self]
  intro a ha
  rw [h a ha]
  cases o <;> simp_all

/-- what is known of the items around the descent -/
def Around (cmp : α → α → Ordering) (data : α) (t : RB α) (path : List (Frame α)) (f : Option Nat) : Prop :=
  (∀ x ∈ leftOf path, cmp x data = .lt) ∧
    ((f = none ∧ ∀ x ∈ rightOf path, cmp x data = .gt) ∨
     ∃ k, f = some k ∧ HitAt path k ∧ (∀ x ∈ t.toList, cmp x data = .lt) ∧
       ∃ y R, rightOf path = y :: R ∧ cmp y data = .eq ∧ ∀ x ∈ R, cmp x data = .gt)

theorem eraseLoop_toList {cmp : α → α → Ordering} (ok : CmpOK cmp) {data : α} (t : RB α) :
    ∀ (path : List (Frame α)) (f : Option Nat), Around cmp data t path f →
      (leftOf path ++ t.toList ++ rightOf path).Pairwise (fun a b => cmp a b = .lt) →
      (eraseLoop cmp data t path f).toList = (leftOf path ++ t.toList ++ rightOf path).filter (fun x => cmp x data != .eq) := by
  induction t with
  | nil =>
    rintro path f ⟨hl, h⟩ _
    simp only [eraseLoop, toList, List.append_nil, List.filter_append]
    rw [filter_all hl (by simp)]
    rcases h with ⟨rfl, hr⟩ | ⟨k, rfl, hk, _, y, R, e, hy, hR⟩
    · rw [filter_all hr (by simp)]
      simp [eraseEnd, zip_toList, toList]
    · obtain ⟨y', R', e', h'⟩ := eraseEnd_hit hk
      rw [e] at e'
      cases e'
      rw [h', e, List.filter_cons, filter_all hR (by simp)]
      simp [hy]
  | node c x l r ihl ihr =>
    rintro path f ⟨hl, h⟩ ho
    have ho' : (leftOf path ++ (l.toList ++ ([x] ++ (r.toList ++ rightOf path)))).Pairwise (fun a b => cmp a b = .lt) := by
      simpa [toList] using ho
    simp only [List.pairwise_append, List.mem_append, List.mem_singleton] at ho'
    obtain ⟨_, ⟨_, ⟨_, _, hx⟩, hlx⟩, _⟩ := ho'
    simp only [eraseLoop]
    split
    · rename_i hc
      have hs := step_lists path f ⟨true, c, x, l⟩ r
      have e1 : leftOf (eraseStep path f ⟨true, c, x, l⟩ r).1 = leftOf path ++ (l.toList ++ [x]) := by rw [hs.1]; simp [leftOf]
      have e2 : rightOf (eraseStep path f ⟨true, c, x, l⟩ r).1 = rightOf path := by rw [hs.2]; simp [rightOf]
      have e : leftOf path ++ (node c x l r).toList ++ rightOf path =
          leftOf (eraseStep path f ⟨true, c, x, l⟩ r).1 ++ r.toList ++ rightOf (eraseStep path f ⟨true, c, x, l⟩ r).1 := by
        rw [e1, e2]; simp [toList]
      rw [e] at ho ⊢
      refine ihr _ _ ⟨?_, ?_⟩ ho
      · rw [e1]
        intro a ha
        simp only [List.mem_append, List.mem_singleton] at ha
        rcases ha with ha | ha | rfl
        · exact hl a ha
        · exact ok.trans _ _ _ (hlx a ha x (Or.inl rfl)) hc
        · exact hc
      · rcases h with ⟨rfl, hr⟩ | ⟨k, rfl, hk, ht, hy⟩
        · exact Or.inl ⟨step_none _ _ _, by rw [e2]; exact hr⟩
        · obtain ⟨j, h1, h2⟩ := step_hit hk ⟨true, c, x, l⟩ r rfl
          exact Or.inr ⟨j, h1, h2, fun a ha => ht a (by simp [toList, ha]), by rw [e2]; exact hy⟩
    · rename_i hc
      have hs := step_lists path f ⟨false, c, x, r⟩ l
      have e1 : leftOf (eraseStep path f ⟨false, c, x, r⟩ l).1 = leftOf path := by rw [hs.1]; simp [leftOf]
      have e2 : rightOf (eraseStep path f ⟨false, c, x, r⟩ l).1 = x :: (r.toList ++ rightOf path) := by rw [hs.2]; simp [rightOf]
      have e : leftOf path ++ (node c x l r).toList ++ rightOf path =
          leftOf (eraseStep path f ⟨false, c, x, r⟩ l).1 ++ l.toList ++ rightOf (eraseStep path f ⟨false, c, x, r⟩ l).1 := by
        rw [e1, e2]; simp [toList]
      rw [e] at ho ⊢
      refine ihl _ _ ⟨by rw [e1]; exact hl, ?_⟩ ho
      refine Or.inr ⟨0, rfl, step_hit_self _ _ _ _ rfl, fun a ha => ok.lt_of_eq (hlx a ha x (Or.inl rfl)) hc, x, _, e2, hc, ?_⟩
      intro a ha
      exact ok.gt_of_eq (hx x rfl a (by simpa using ha)) hc
    · rename_i hc
      have hs := step_lists path f ⟨false, c, x, r⟩ l
      have e1 : leftOf (eraseStep path f ⟨false, c, x, r⟩ l).1 = leftOf path := by rw [hs.1]; simp [leftOf]
      have e2 : rightOf (eraseStep path f ⟨false, c, x, r⟩ l).1 = x :: (r.toList ++ rightOf path) := by rw [hs.2]; simp [rightOf]
      have e : leftOf path ++ (node c x l r).toList ++ rightOf path =
          leftOf (eraseStep path f ⟨false, c, x, r⟩ l).1 ++ l.toList ++ rightOf (eraseStep path f ⟨false, c, x, r⟩ l).1 := by
        rw [e1, e2]; simp [toList]
      rw [e] at ho ⊢
      refine ihl _ _ ⟨by rw [e1]; exact hl, ?_⟩ ho
      rcases h with ⟨rfl, hr⟩ | ⟨k, rfl, hk, ht, hy⟩
      · refine Or.inl ⟨step_none _ _ _, ?_⟩
        rw [e2]
        intro a ha
        rcases List.mem_cons.1 ha with rfl | ha
        · exact hc
        · rw [ok.swap]
          exact ok.trans _ _ _ ((ok.swap _ _).1 hc) (hx x rfl a (by simpa using ha))
      · have := ht x (by simp [toList])
        rw [hc] at this; cases this

/-- `jsw_rberase` takes out what is equal to `data`, and nothing else -/
theorem erase_toList {cmp : α → α → Ordering} (ok : CmpOK cmp) (data : α) {t : RB α} (ho : Ordered cmp t) :
    (erase cmp data t).toList = t.toList.filter (fun x => cmp x data != .eq) := by
  rw [erase, blacken_toList, eraseLoop_toList ok t [] none ⟨by simp [leftOf], Or.inl ⟨rfl, by simp [rightOf]⟩⟩ (by simpa [leftOf, rightOf, Ordered] using ho)]
  simp [leftOf, rightOf]

/-! ### the colours -/

theorem ctx_modify {path : List (Frame α)} {n : Nat} (h : CtxOK path n) (k : Nat) (y : α) :
    CtxOK (path.modify k fun fr => { fr with x := y }) n ∧ topRed (path.modify k fun fr => { fr with x := y }) = topRed path := by
  induction path generalizing n k with
  | nil => cases k <;> exact ⟨h, rfl⟩
  | cons f fs ih =>
    obtain ⟨h1, h2, h3⟩ := h
    cases k with
    | zero => exact ⟨⟨h1, h2, h3⟩, rfl⟩
    | succ k =>
      rw [List.modify_succ_cons]
      refine ⟨⟨h1, h2, ?_⟩, rfl⟩
      split
      · rename_i hr
        rw [if_pos hr] at h3
        exact ⟨h3.1, by rw [(ih h3.2.2 k).2]; exact h3.2.1, (ih h3.2.2 k).1⟩
      · rename_i hr
        rw [if_neg hr] at h3
        exact (ih h3 k).1

/-- above a node that is not red: a red one, or only the root -/
def Above (path : List (Frame α)) : Prop := topRed path = true ∨ path = [] ∨ ∃ f, path = [f] ∧ f.other.isRed = false

theorem step_ctx {path : List (Frame α)} (f : Option Nat) {q : Frame α} {child : RB α} {m : Nat}
    (ho : BH q.other m) (hc : BH child m) (no : NoRR q.other) (hr : q.red = true → q.other.isRed = false ∧ child.isRed = false)
    (ctx : CtxOK path (if q.red then m else m + 1)) (top : topRed path = true → q.red = false) (ab : q.red = false → Above path) :
    CtxOK (eraseStep path f q child).1 m ∧ (topRed (eraseStep path f q child).1 = true → child.isRed = false) ∧
      (child.isRed = false → Above (eraseStep path f q child).1) := by
  obtain ⟨qd, qr, qx, qo⟩ := q
  dsimp only at ho no hr ctx top ab
  unfold eraseStep
  dsimp only
  cases hrc : qr || child.isRed with
  | true =>
    rw [if_pos rfl]
    cases qr with
    | true =>
      have ht : topRed path = false := by
        cases h : topRed path with
        | false => rfl
        | true => exact absurd (top h) (by simp)
      exact ⟨⟨ho, no, (hr rfl).1, ht, ctx⟩, fun _ => (hr rfl).2, fun _ => Or.inl rfl⟩
    | false =>
      simp only [Bool.false_or] at hrc
      exact ⟨⟨ho, no, ctx⟩, fun h => by simp [topRed] at h, fun h => by rw [hrc] at h; cases h⟩
  | false =>
    rw [if_neg (by simp)]
    simp only [Bool.or_eq_false_iff] at hrc
    obtain ⟨rfl, hcb⟩ := hrc
    simp only [Bool.false_eq_true, if_false] at ctx
    replace ab := ab rfl
    split
    · rename_i ox ol or
      cases ho with
      | red o1 o2 =>
      cases no with
      | red n1 n2 c1 c2 =>
      cases qd
      · exact ⟨⟨o1, n1, c1, rfl, ⟨o2, n2, ctx⟩⟩, fun _ => hcb, fun _ => Or.inl rfl⟩
      · exact ⟨⟨o2, n2, c2, rfl, ⟨o1, n1, ctx⟩⟩, fun _ => hcb, fun _ => Or.inl rfl⟩
    · rename_i hqo
      have hob : qo.isRed = false := by
        cases qo with
        | nil => rfl
        | node c _ _ _ =>
          cases c
          · rfl
          · exact (hqo _ _ _ rfl).elim
      cases path with
      | nil => exact ⟨⟨ho, no, trivial⟩, fun h => by simp [topRed] at h, fun _ => Or.inr (Or.inr ⟨_, rfl, hob⟩)⟩
      | cons p rest =>
        obtain ⟨pd, pr, px, po⟩ := p
        obtain ⟨b1, n1, hrest⟩ := ctx
        have hpo : po.isRed = false ∧ topRed rest = false ∧ CtxOK rest (m + 1) := by
          rcases ab with h | h | ⟨g, h, hg⟩
          · simp only [topRed] at h
            subst h
            exact ⟨hrest.1, hrest.2.1, hrest.2.2⟩
          · cases h
          · cases h
            exact ⟨hg, rfl, trivial⟩
        obtain ⟨hpo, tr, cr⟩ := hpo
        dsimp only at b1 n1 ⊢
        cases po with
        | nil => cases b1
        | node sc sx sl sr =>
          simp only [isRed] at hpo
          subst hpo
          dsimp only
          cases b1 with
          | black s1 s2 =>
          cases n1 with
          | black m1 m2 =>
          split
          · rename_i hs
            simp only [Bool.or_eq_false_iff] at hs
            exact ⟨⟨ho, no, hob, rfl, ⟨.red s1 s2, .red m1 m2 hs.1 hs.2, cr⟩⟩, fun _ => hcb, fun _ => Or.inl rfl⟩
          · rename_i hs
            split
            · rename_i nx nl nr hn
              cases pd
              · simp only [Bool.false_eq_true, if_false] at hn ⊢
                subst hn
                cases s1 with
                | red t1 t2 =>
                cases m1 with
                | red u1 u2 _ _ =>
                exact ⟨⟨ho, no, hob, rfl, ⟨t1, u1, ⟨.black t2 s2, .black u2 m2, rfl, tr, cr⟩⟩⟩, fun _ => hcb, fun _ => Or.inl rfl⟩
              · simp only [if_true] at hn ⊢
                subst hn
                cases s2 with
                | red t1 t2 =>
                cases m2 with
                | red u1 u2 _ _ =>
                exact ⟨⟨ho, no, hob, rfl, ⟨t2, u2, ⟨.black s1 t1, .black m1 u1, rfl, tr, cr⟩⟩⟩, fun _ => hcb, fun _ => Or.inl rfl⟩
            · rename_i hn
              have nearb : ∀ t : RB α, (∀ x l r, t = node true x l r → False) → t.isRed = false := by
                intro t ht
                cases t with
                | nil => rfl
                | node c _ _ _ =>
                  cases c
                  · rfl
                  · exact (ht _ _ _ rfl).elim
              have far : ∀ t : RB α, t.isRed = true → BH t m → NoRR t → BH (blacken t) (m + 1) ∧ NoRR (blacken t) ∧ (blacken t).isRed = false := by
                intro t ht hb hn
                cases hb with
                | nil => cases ht
                | red a b => exact ⟨.black a b, blacken_norr hn, rfl⟩
                | black a b => cases ht
              cases pd
              · simp only [Bool.false_eq_true, if_false] at hn ⊢
                have h1 := nearb _ hn
                have h2 : sr.isRed = true := by simpa [h1] using hs
                obtain ⟨f1, f2, f3⟩ := far _ h2 s2 m2
                exact ⟨⟨ho, no, hob, rfl, ⟨s1, m1, ⟨f1, f2, f3, tr, cr⟩⟩⟩, fun _ => hcb, fun _ => Or.inl rfl⟩
              · simp only [if_true] at hn ⊢
                have h1 := nearb _ hn
                have h2 : sl.isRed = true := by simpa [h1] using hs
                obtain ⟨f1, f2, f3⟩ := far _ h2 s1 m1
                exact ⟨⟨ho, no, hob, rfl, ⟨s2, m2, ⟨f1, f2, f3, tr, cr⟩⟩⟩, fun _ => hcb, fun _ => Or.inl rfl⟩

theorem bh_zero {t : RB α} (h : BH t 0) (hr : t.isRed = false) : t = nil := by
  cases h with
  | nil => rfl
  | red _ _ => cases hr

theorem eraseEnd_rb {path : List (Frame α)} (f : Option Nat) (ctx : CtxOK path 0) (ab : Above path) :
    (∃ m, BH (eraseEnd path f) m) ∧ NoRR (eraseEnd path f) := by
  have hn : ∀ p : List (Frame α), CtxOK p 0 → (∃ m, BH (zip p nil) m) ∧ NoRR (zip p nil) := fun p h =>
    ⟨zip_bh .nil h, zip_norr .nil h fun _ => rfl⟩
  have hq : ∀ q rest, path = q :: rest → q.other = nil ∧ CtxOK rest 0 := by
    rintro q rest rfl
    obtain ⟨h1, h2, h3⟩ := ctx
    rcases ab with h | h | ⟨g, h, hg⟩
    · simp only [topRed] at h
      rw [if_pos h] at h3
      exact ⟨bh_zero h1 h3.1, h3.2.2⟩
    · cases h
    · cases h
      exact ⟨bh_zero h1 hg, trivial⟩
  unfold eraseEnd
  split
  · obtain ⟨e, h⟩ := hq _ _ rfl
    rw [e]
    exact hn _ h
  · obtain ⟨e, h⟩ := hq _ _ rfl
    rw [e]
    exact hn _ (ctx_modify h _ _).1
  · exact hn _ ctx

theorem eraseLoop_rb {cmp : α → α → Ordering} {data : α} (t : RB α) :
    ∀ (path : List (Frame α)) (f : Option Nat) (n : Nat), CtxOK path n → BH t n → NoRR t →
      (topRed path = true → t.isRed = false) → (t.isRed = false → Above path) →
      (∃ m, BH (eraseLoop cmp data t path f) m) ∧ NoRR (eraseLoop cmp data t path f) := by
  induction t with
  | nil =>
    intro path f n ctx hb _ _ ab
    cases hb
    exact eraseEnd_rb f ctx (ab rfl)
  | node c x l r ihl ihr =>
    intro path f n ctx hb hn top ab
    have key : ∃ m, n = (if c then m else m + 1) ∧ BH l m ∧ BH r m ∧ NoRR l ∧ NoRR r ∧ (c = true → l.isRed = false ∧ r.isRed = false) := by
      cases hb with
      | red h1 h2 =>
        cases hn with
        | red n1 n2 c1 c2 => exact ⟨n, rfl, h1, h2, n1, n2, fun _ => ⟨c1, c2⟩⟩
      | black h1 h2 =>
        cases hn with
        | black n1 n2 => exact ⟨_, rfl, h1, h2, n1, n2, fun h => by cases h⟩
    obtain ⟨m, rfl, bl, br, nl, nr, hr⟩ := key
    have sr := step_ctx f (q := ⟨true, c, x, l⟩) (child := r) bl br nl hr ctx top ab
    have sl := step_ctx f (q := ⟨false, c, x, r⟩) (child := l) br bl nr (fun h => (hr h).symm) ctx top ab
    simp only [eraseLoop]
    split
    · exact ihr _ _ m sr.1 br nr sr.2.1 sr.2.2
    · exact ihl _ _ m sl.1 bl nl sl.2.1 sl.2.2
    · exact ihl _ _ m sl.1 bl nl sl.2.1 sl.2.2

/-- `jsw_rberase` on a valid tree -/
theorem erase_valid {cmp : α → α → Ordering} (ok : CmpOK cmp) (data : α) {t : RB α} (hv : Valid cmp t) : Valid cmp (erase cmp data t) := by
  obtain ⟨m, hm⟩ := hv.bh
  obtain ⟨h1, h2⟩ := eraseLoop_rb (cmp := cmp) (data := data) t [] none m trivial hm hv.norr (fun h => by cases h) (fun _ => Or.inr (Or.inl rfl))
  refine ⟨?_, ?_, blacken_norr h2, blacken_bh h1⟩
  · rw [Ordered, erase_toList ok data hv.ordered]
    exact List.Pairwise.filter _ hv.ordered
  · simp only [erase]
    cases eraseLoop cmp data t [] none <;> rfl

end BeTree.RB
