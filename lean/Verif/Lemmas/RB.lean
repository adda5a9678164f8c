import Verif.Model.RBTree
/-
Top-down red-black insertion: order, colours and balance.
-/
namespace BeTree.RB
variable {α : Type}

/-- in-order contents -/
def toList : RB α → List α
  | nil => []
  | node _ x l r => l.toList ++ x :: r.toList

/-- every path from here to a leaf crosses `n` black nodes -/
inductive BH : RB α → Nat → Prop
  | nil : BH nil 0
  | red {x l r n} (hl : BH l n) (hr : BH r n) : BH (node true x l r) n
  | black {x l r n} (hl : BH l n) (hr : BH r n) : BH (node false x l r) (n + 1)

/-- no red node has a red child -/
inductive NoRR : RB α → Prop
  | nil : NoRR nil
  | red {x l r} (hl : NoRR l) (hr : NoRR r) (cl : l.isRed = false) (cr : r.isRed = false) : NoRR (node true x l r)
  | black {x l r} (hl : NoRR l) (hr : NoRR r) : NoRR (node false x l r)

/-- what a comparison function must satisfy -/
structure CmpOK (cmp : α → α → Ordering) : Prop where
  refl : ∀ a, cmp a a = .eq
  trans : ∀ a b c, cmp a b = .lt → cmp b c = .lt → cmp a c = .lt
  swap : ∀ a b, cmp a b = .gt ↔ cmp b a = .lt
  congr : ∀ a b c, cmp a b = .eq → cmp a c = cmp b c

/-- the tree is ordered -/
def Ordered (cmp : α → α → Ordering) (t : RB α) : Prop := t.toList.Pairwise (fun a b => cmp a b = .lt)

/-! ### find -/

theorem find_some {cmp : α → α → Ordering} {data : α} {t : RB α} {x : α} (h : find cmp data t = some x) :
    x ∈ t.toList ∧ cmp x data = .eq := by
  induction t with
  | nil => cases h
  | node c y l r ihl ihr =>
    simp only [find] at h
    simp only [toList, List.mem_append, List.mem_cons]
    split at h
    · rename_i hc; cases h; exact ⟨Or.inr (Or.inl rfl), hc⟩
    · obtain ⟨h1, h2⟩ := ihr h; exact ⟨Or.inr (Or.inr h1), h2⟩
    · obtain ⟨h1, h2⟩ := ihl h; exact ⟨Or.inl h1, h2⟩

theorem find_none {cmp : α → α → Ordering} (ok : CmpOK cmp) {data : α} {t : RB α} (ho : Ordered cmp t)
    (h : find cmp data t = none) : ∀ x ∈ t.toList, cmp x data ≠ .eq := by
  induction t with
  | nil => intro x hx; cases hx
  | node c y l r ihl ihr =>
    simp only [Ordered, toList, List.pairwise_append, List.pairwise_cons, List.mem_cons] at ho
    obtain ⟨h1, ⟨h2, h3⟩, h4⟩ := ho
    simp only [find] at h
    intro x hx
    simp only [toList, List.mem_append, List.mem_cons] at hx
    split at h
    · cases h
    · rename_i hc
      rcases hx with hx | rfl | hx
      · rw [ok.trans _ _ _ (h4 x hx y (Or.inl rfl)) hc]; intro h; cases h
      · rw [hc]; intro h; cases h
      · exact ihr h3 h x hx
    · rename_i hc
      rcases hx with hx | rfl | hx
      · exact ihl h1 h x hx
      · rw [hc]; intro h; cases h
      · have := ok.trans _ _ _ ((ok.swap _ _).1 hc) (h2 x hx)
        rw [(ok.swap _ _).2 this]; intro h; cases h

/-! ### the path -/

/-- the path accepts a subtree of black height `n` -/
def CtxOK : List (Frame α) → Nat → Prop
  | [], _ => True
  | f :: fs, n =>
    BH f.other n ∧ NoRR f.other ∧
      if f.red then f.other.isRed = false ∧ topRed fs = false ∧ CtxOK fs n else CtxOK fs (n + 1)

/-- the descent went where the comparison says -/
def Dirs (cmp : α → α → Ordering) (data : α) (path : List (Frame α)) : Prop :=
  ∀ f ∈ path, cmp f.x data = if f.dir then .lt else .gt

/-- black, and not both children red: will not become red when visited -/
def Calm : RB α → Prop
  | node false _ l r => ¬ (l.isRed = true ∧ r.isRed = true)
  | _ => False

/-- the child in the direction of `data` is calm -/
def CalmNext (cmp : α → α → Ordering) (data : α) : RB α → Prop
  | nil => False
  | node _ x l r =>
    match cmp x data with
    | .eq => True
    | .lt => Calm r
    | .gt => Calm l

/-- number of nodes the search for `data` visits, plus one -/
def plen (cmp : α → α → Ordering) (data : α) : RB α → Nat
  | nil => 1
  | node _ x l r =>
    match cmp x data with
    | .eq => 1
    | .lt => r.plen cmp data + 1
    | .gt => l.plen cmp data + 1

structure Inv (cmp : α → α → Ordering) (data : α) (cool : Nat) (q : RB α) (path : List (Frame α)) (n : Nat) : Prop where
  bh : BH q n
  norr : NoRR q
  ctx : CtxOK path n
  top : topRed path = true → q.isRed = false
  rot : topRed path = true → Calm q ∨ ∃ p g rest, path = p :: g :: rest ∧ g.other.isRed = false
  red : q.isRed = true → CalmNext cmp data q ∨ ∃ g rest, path = g :: rest ∧ g.other.isRed = false
  cool : cool = 0 ∨ (cool = 1 ∧ Calm q) ∨ (cool = 2 ∧ q.isRed = true ∧ CalmNext cmp data q)
  dirs : Dirs cmp data path

theorem zip_bh {path : List (Frame α)} {q : RB α} {n : Nat} (hq : BH q n) (hc : CtxOK path n) : ∃ m, BH (zip path q) m := by
  induction path generalizing q n with
  | nil => exact ⟨n, hq⟩
  | cons f fs ih =>
    obtain ⟨dir, red, x, other⟩ := f
    obtain ⟨h1, h2, h3⟩ := hc
    cases red
    · refine ih (n := n + 1) ?_ h3
      cases dir
      · exact .black hq h1
      · exact .black h1 hq
    · refine ih (n := n) ?_ h3.2.2
      cases dir
      · exact .red hq h1
      · exact .red h1 hq

theorem zip_norr {path : List (Frame α)} {q : RB α} {n : Nat} (hq : NoRR q) (hc : CtxOK path n)
    (ht : topRed path = true → q.isRed = false) : NoRR (zip path q) := by
  induction path generalizing q n with
  | nil => exact hq
  | cons f fs ih =>
    obtain ⟨dir, red, x, other⟩ := f
    obtain ⟨h1, h2, h3⟩ := hc
    cases red
    · refine ih (n := n + 1) ?_ h3 ?_
      · cases dir
        · exact .black hq h2
        · exact .black h2 hq
      · intro _; cases dir <;> rfl
    · refine ih (n := n) ?_ h3.2.2 ?_
      · cases dir
        · exact .red hq h2 (ht rfl) h3.1
        · exact .red h2 hq h3.1 (ht rfl)
      · intro h; rw [h3.2.1] at h; cases h

/-- what is left and right of the hole -/
def leftOf : List (Frame α) → List α
  | [] => []
  | f :: fs => leftOf fs ++ (if f.dir then f.other.toList ++ [f.x] else [])
def rightOf : List (Frame α) → List α
  | [] => []
  | f :: fs => (if f.dir then [] else f.x :: f.other.toList) ++ rightOf fs

theorem zip_toList (path : List (Frame α)) (q : RB α) : (zip path q).toList = leftOf path ++ q.toList ++ rightOf path := by
  induction path generalizing q with
  | nil => simp [zip, leftOf, rightOf]
  | cons f fs ih =>
    obtain ⟨dir, red, x, other⟩ := f
    cases dir <;> simp [zip, ih, plug, leftOf, rightOf, toList]

theorem flip_toList (q : RB α) : (flip q).toList = q.toList := by
  unfold flip; split <;> simp [toList]

theorem flip_eq_or (q : RB α) :
    flip q = q ∧ (∀ c x l r, q = node c x l r → ¬ (l.isRed = true ∧ r.isRed = true)) ∨
    ∃ c x lx ll lr rx rl rr, q = node c x (node true lx ll lr) (node true rx rl rr) ∧
      flip q = node true x (node false lx ll lr) (node false rx rl rr) := by
  unfold flip
  split
  · right; exact ⟨_, _, _, _, _, _, _, _, rfl, rfl⟩
  · rename_i h
    left
    refine ⟨rfl, ?_⟩
    rintro c x l r rfl ⟨h1, h2⟩
    cases l with
    | nil => cases h1
    | node cl xl ll lr =>
      cases r with
      | nil => cases h2
      | node cr xr rl rr =>
        simp only [isRed] at h1 h2
        subst h1 h2
        exact h _ _ _ _ _ _ _ _ rfl

theorem isRed_false_of_norr {t : RB α} {c : Bool} {x : α} {l r : RB α} (h : NoRR t) (e : t = node c x l r) (hc : c = true) :
    l.isRed = false ∧ r.isRed = false := by
  subst hc e
  cases h with
  | red _ _ h3 h4 => exact ⟨h3, h4⟩



/-! ### insertion -/

/-- what the loop guarantees about its result `t`, started on a tree whose contents are `before` -/
def Good (cmp : α → α → Ordering) (data : α) (before : List α) (t : RB α) : Prop :=
  (∃ m, BH t m) ∧ NoRR t ∧
    ((t.toList = before ∧ ∃ x ∈ before, cmp x data = .eq) ∨
     ∃ L R, before = L ++ R ∧ t.toList = L ++ data :: R ∧ (∀ x ∈ L, cmp x data = .lt) ∧ ∀ x ∈ R, cmp x data = .gt)

theorem ordered_focus {cmp : α → α → Ordering} {path : List (Frame α)} {q : RB α} (ho : Ordered cmp (zip path q)) :
    Ordered cmp q := by
  rw [Ordered, zip_toList, List.append_assoc] at ho
  exact (List.pairwise_append.1 (List.pairwise_append.1 ho).2.1).1

theorem leftOf_lt {cmp : α → α → Ordering} (ok : CmpOK cmp) {data : α} {path : List (Frame α)} {q : RB α}
    (hd : Dirs cmp data path) (ho : Ordered cmp (zip path q)) : ∀ x ∈ leftOf path, cmp x data = .lt := by
  induction path generalizing q with
  | nil => intro x hx; cases hx
  | cons f fs ih =>
    intro x hx
    have h1 := ih (fun f hf => hd f (List.mem_cons_of_mem _ hf)) ho
    obtain ⟨dir, red, y, other⟩ := f
    have h2 := hd _ (List.mem_cons_self ..)
    cases dir
    · simp [leftOf] at hx; exact h1 x hx
    · simp only [leftOf, if_true, List.mem_append, List.mem_singleton] at hx
      simp only [if_true] at h2
      rcases hx with hx | hx | rfl
      · exact h1 x hx
      · have h3 : Ordered cmp (node red y other q) := ordered_focus (path := fs) ho
        simp only [Ordered, toList, List.pairwise_append, List.mem_cons] at h3
        exact ok.trans _ _ _ (h3.2.2 x hx y (Or.inl rfl)) h2
      · exact h2

theorem rightOf_gt {cmp : α → α → Ordering} (ok : CmpOK cmp) {data : α} {path : List (Frame α)} {q : RB α}
    (hd : Dirs cmp data path) (ho : Ordered cmp (zip path q)) : ∀ x ∈ rightOf path, cmp x data = .gt := by
  induction path generalizing q with
  | nil => intro x hx; cases hx
  | cons f fs ih =>
    intro x hx
    have h1 := ih (fun f hf => hd f (List.mem_cons_of_mem _ hf)) ho
    obtain ⟨dir, red, y, other⟩ := f
    have h2 := hd _ (List.mem_cons_self ..)
    cases dir
    · simp only [rightOf, Bool.false_eq_true, if_false, List.mem_append, List.mem_cons] at hx
      simp only [Bool.false_eq_true, if_false] at h2
      rcases hx with (rfl | hx) | hx
      · exact h2
      · have h3 : Ordered cmp (node red y q other) := ordered_focus (path := fs) ho
        simp only [Ordered, toList, List.pairwise_append, List.pairwise_cons] at h3
        rw [ok.swap] at h2 ⊢
        exact ok.trans _ _ _ h2 (h3.2.1.1 x hx)
      · exact h1 x hx
    · simp [rightOf] at hx; exact h1 x hx

/-- the measure that bounds the loop -/
def fuelFor (cmp : α → α → Ordering) (data : α) (cool : Nat) (q : RB α) : Nat :=
  2 * q.plen cmp data + (if cool = 2 then 0 else 1)

theorem flip_plen (cmp : α → α → Ordering) (data : α) (q : RB α) : (flip q).plen cmp data = q.plen cmp data := by
  unfold flip
  split
  · simp only [plen]
  · rfl

/-- The part of an iteration after the rotation. -/
theorem good_of_focus {cmp : α → α → Ordering} {data : α} {fuel cool : Nat} {c : Bool} {x : α} {l r : RB α}
    {path : List (Frame α)} {n : Nat} {before : List α}
    (hbh : BH (node c x l r) n) (hnr : NoRR (node c x l r)) (hctx : CtxOK path n) (htop : topRed path = true → c = false)
    (hbefore : (zip path (node c x l r)).toList = before)
    (hl : cmp x data = .gt → ∃ t, insertLoop cmp data fuel cool l ({ dir := false, red := c, x := x, other := r } :: path) = .ok t ∧ Good cmp data before t)
    (hr : cmp x data = .lt → ∃ t, insertLoop cmp data fuel cool r ({ dir := true, red := c, x := x, other := l } :: path) = .ok t ∧ Good cmp data before t) :
    ∃ t, (match cmp x data with
      | .eq => (.ok (zip path (node c x l r)) : Except Fault (RB α))
      | .lt => insertLoop cmp data fuel cool r ({ dir := true, red := c, x := x, other := l } :: path)
      | .gt => insertLoop cmp data fuel cool l ({ dir := false, red := c, x := x, other := r } :: path)) = .ok t ∧
      Good cmp data before t := by
  cases hc : cmp x data with
  | lt => exact hr hc
  | gt => exact hl hc
  | eq =>
    refine ⟨_, rfl, zip_bh hbh hctx, zip_norr hnr hctx htop, Or.inl ⟨hbefore, x, ?_, hc⟩⟩
    rw [← hbefore, zip_toList]
    simp [toList]

theorem insertLoop_good {cmp : α → α → Ordering} (ok : CmpOK cmp) {data : α} (fuel : Nat) :
    ∀ {cool : Nat} {q : RB α} {path : List (Frame α)} {n : Nat}, Inv cmp data cool q path n →
      fuelFor cmp data cool q ≤ fuel → Ordered cmp (zip path q) →
      ∃ t, insertLoop cmp data fuel cool q path = .ok t ∧ Good cmp data (zip path q).toList t := by
  induction fuel with
  | zero =>
    intro cool q path n _ hf
    exfalso
    cases q with
    | nil => simp only [fuelFor, plen] at hf; omega
    | node c x l r => simp only [fuelFor, plen] at hf; split at hf <;> omega
  | succ fuel ih =>
    intro cool q path n inv hf ho
    have key : ∀ {cool' : Nat} {q' : RB α} {path' : List (Frame α)} {n' : Nat}, Inv cmp data cool' q' path' n' →
        fuelFor cmp data cool' q' ≤ fuel → (zip path' q').toList = (zip path q).toList →
        ∃ t, insertLoop cmp data fuel cool' q' path' = .ok t ∧ Good cmp data (zip path q).toList t := by
      intro cool' q' path' n' hi hf' he
      rw [← he]
      refine ih hi hf' ?_
      rw [Ordered, he]; exact ho
    cases q with
    | nil =>
      have hn : n = 0 := by cases inv.bh; rfl
      subst hn
      have hcool : cool = 0 := by
        rcases inv.cool with h | ⟨_, h⟩ | ⟨_, h, _⟩
        · exact h
        · exact h.elim
        · cases h
      subst hcool
      have hL := leftOf_lt ok inv.dirs ho
      have hR := rightOf_gt ok inv.dirs ho
      simp only [insertLoop, isRed, Bool.true_and]
      cases ht : topRed path with
      | false =>
        simp only [Bool.false_eq_true, if_false, ok.refl]
        refine ⟨_, rfl, zip_bh (.red .nil .nil) inv.ctx, zip_norr (.red .nil .nil rfl rfl) inv.ctx (by rw [ht]; intro h; cases h),
          Or.inr ⟨leftOf path, rightOf path, ?_, ?_, hL, hR⟩⟩
        · simp [zip_toList, toList]
        · simp [zip_toList, toList]
      | true =>
        rcases inv.rot ht with h | ⟨p, g, rest, rfl, hg⟩
        · exact h.elim
        · obtain ⟨c1, c2, c3⟩ := inv.ctx
          simp only [topRed] at ht
          rw [ht, if_pos rfl] at c3
          obtain ⟨c3, c4, c5⟩ := c3
          simp only [topRed] at c4
          obtain ⟨c6, c7, c8⟩ := c5
          rw [c4, if_neg (by simp)] at c8
          obtain ⟨pd, pr, px, po⟩ := p
          obtain ⟨gd, gr, gx, go⟩ := g
          simp only at ht c1 c2 c3 c4 c6 c7 hg
          subst ht c4
          cases pd <;> cases gd <;> simp [rotate, ok.refl]
          · refine ⟨zip_bh (n := 0) (.red .nil .nil) ⟨.red c1 c6, .red c2 c7 c3 hg, c8⟩,
              zip_norr (n := 0) (.red .nil .nil rfl rfl) ⟨.red c1 c6, .red c2 c7 c3 hg, c8⟩ (by intro h; cases h),
              Or.inr ⟨_, _, ?_, ?_, hL, hR⟩⟩ <;> simp [zip_toList, toList, leftOf, rightOf]
          · refine ⟨zip_bh (n := 1) (.black (.red c6 .nil) (.red .nil c1)) c8,
              zip_norr (.black (.red c7 .nil hg rfl) (.red .nil c2 rfl c3)) c8 (fun _ => rfl),
              Or.inr ⟨_, _, ?_, ?_, hL, hR⟩⟩ <;> simp [zip_toList, toList, leftOf, rightOf]
          · refine ⟨zip_bh (n := 1) (.black (.red c1 .nil) (.red .nil c6)) c8,
              zip_norr (.black (.red c2 .nil c3 rfl) (.red .nil c7 rfl hg)) c8 (fun _ => rfl),
              Or.inr ⟨_, _, ?_, ?_, hL, hR⟩⟩ <;> simp [zip_toList, toList, leftOf, rightOf]
          · refine ⟨zip_bh (n := 0) (.red .nil .nil) ⟨.red c6 c1, .red c7 c2 hg c3, c8⟩,
              zip_norr (n := 0) (.red .nil .nil rfl rfl) ⟨.red c6 c1, .red c7 c2 hg c3, c8⟩ (by intro h; cases h),
              Or.inr ⟨_, _, ?_, ?_, hL, hR⟩⟩ <;> simp [zip_toList, toList, leftOf, rightOf]
    | node c x l r =>
      rcases flip_eq_or (node c x l r) with ⟨hflip, hboth'⟩ | ⟨c', x', lx, ll, lr, rx, rl, rr, he, hflip⟩
      · have hboth := hboth' _ _ _ _ rfl
        cases c with
        | true =>
          have ht : topRed path = false := by
            cases h : topRed path
            · rfl
            · exact inv.top h
          have hbh := inv.bh
          have hnr := inv.norr
          cases hbh with
          | red b1 b2 =>
          cases hnr with
          | red n1 n2 n3 n4 =>
          have hnext := inv.red rfl
          have hcool : cool = 0 ∨ cool = 2 ∧ CalmNext cmp data (node true x l r) := by
            rcases inv.cool with h | ⟨_, h⟩ | ⟨h1, _, h2⟩
            · exact Or.inl h
            · exact h.elim
            · exact Or.inr ⟨h1, h2⟩
          simp only [insertLoop, hflip, isRed, ht, Bool.and_false, Bool.false_eq_true, if_false]
          refine good_of_focus inv.bh inv.norr inv.ctx (by rw [ht]; intro h; cases h) rfl ?_ ?_
          · intro hc
            refine key (n' := n) ⟨b1, n1, ⟨b2, n2, ?_⟩, fun _ => n3, fun _ => ?_, ?_, ?_, ?_⟩ ?_ ?_
            · exact ⟨n4, ht, inv.ctx⟩
            · rcases hnext with h | ⟨g, rest, rfl, h⟩
              · left; simpa [CalmNext, hc] using h
              · right; exact ⟨_, _, _, rfl, h⟩
            · rw [n3]; intro h; cases h
            · rcases hcool with rfl | ⟨rfl, h⟩
              · exact Or.inl rfl
              · right; left; exact ⟨rfl, by simpa [CalmNext, hc] using h⟩
            · intro f hf
              rcases List.mem_cons.1 hf with rfl | hf
              · simpa using hc
              · exact inv.dirs f hf
            · simp only [fuelFor, plen, hc] at hf ⊢; split at hf <;> split <;> omega
            · rfl
          · intro hc
            refine key (n' := n) ⟨b2, n2, ⟨b1, n1, ?_⟩, fun _ => n4, fun _ => ?_, ?_, ?_, ?_⟩ ?_ ?_
            · exact ⟨n3, ht, inv.ctx⟩
            · rcases hnext with h | ⟨g, rest, rfl, h⟩
              · left; simpa [CalmNext, hc] using h
              · right; exact ⟨_, _, _, rfl, h⟩
            · rw [n4]; intro h; cases h
            · rcases hcool with rfl | ⟨rfl, h⟩
              · exact Or.inl rfl
              · right; left; exact ⟨rfl, by simpa [CalmNext, hc] using h⟩
            · intro f hf
              rcases List.mem_cons.1 hf with rfl | hf
              · simpa using hc
              · exact inv.dirs f hf
            · simp only [fuelFor, plen, hc] at hf ⊢; split at hf <;> split <;> omega
            · rfl
        | false =>
          have hbh := inv.bh
          have hnr := inv.norr
          cases hbh with
          | @black _ _ _ k b1 b2 =>
          cases hnr with
          | black n1 n2 =>
          have hcool : cool - 1 = 0 := by
            rcases inv.cool with h | ⟨h, _⟩ | ⟨_, h, _⟩
            · omega
            · omega
            · cases h
          simp only [insertLoop, hflip, isRed, Bool.false_and, Bool.false_eq_true, if_false, hcool]
          refine good_of_focus inv.bh inv.norr inv.ctx (fun _ => rfl) rfl ?_ ?_
          · intro hc
            refine key (n' := k) ⟨b1, n1, ⟨b2, n2, inv.ctx⟩, ?_, ?_, ?_, Or.inl rfl, ?_⟩ ?_ rfl
            · intro h; cases h
            · intro h; cases h
            · intro h; right; refine ⟨_, _, rfl, ?_⟩
              exact Bool.eq_false_iff.2 fun h2 => hboth ⟨h, h2⟩
            · intro f hf
              rcases List.mem_cons.1 hf with rfl | hf
              · simpa using hc
              · exact inv.dirs f hf
            · simp only [fuelFor, plen, hc] at hf ⊢; split at hf <;> split <;> omega
          · intro hc
            refine key (n' := k) ⟨b2, n2, ⟨b1, n1, inv.ctx⟩, ?_, ?_, ?_, Or.inl rfl, ?_⟩ ?_ rfl
            · intro h; cases h
            · intro h; cases h
            · intro h; right; refine ⟨_, _, rfl, ?_⟩
              exact Bool.eq_false_iff.2 fun h2 => hboth ⟨h2, h⟩
            · intro f hf
              rcases List.mem_cons.1 hf with rfl | hf
              · simpa using hc
              · exact inv.dirs f hf
            · simp only [fuelFor, plen, hc] at hf ⊢; split at hf <;> split <;> omega
      · cases he
        have hnr := inv.norr
        have hbh := inv.bh
        cases hnr with
        | red _ _ h _ => cases h
        | black n1 n2 =>
        cases hbh with
        | @black _ _ _ k b1 b2 =>
        cases n1 with
        | red n1 n3 n4 n5 =>
        cases n2 with
        | red n2 n6 n7 n8 =>
        cases b1 with
        | red b1 b3 =>
        cases b2 with
        | red b2 b4 =>
        have hcool : cool = 0 := by
          rcases inv.cool with h | ⟨_, h⟩ | ⟨_, h, _⟩
          · exact h
          · exact (h ⟨rfl, rfl⟩).elim
          · cases h
        subst hcool
        have hcl : Calm (node false lx ll lr) := by simp [Calm, n4]
        have hcr : Calm (node false rx rl rr) := by simp [Calm, n7]
        have nl : NoRR (node false lx ll lr) := .black n1 n3
        have nr : NoRR (node false rx rl rr) := .black n2 n6
        have bl : BH (node false lx ll lr) (k + 1) := .black b1 b3
        have br : BH (node false rx rl rr) (k + 1) := .black b2 b4
        simp only [insertLoop, hflip, isRed, Bool.true_and]
        cases ht : topRed path with
        | false =>
          simp only [Bool.false_eq_true, if_false]
          refine good_of_focus (n := k + 1) (.red bl br) (.red nl nr rfl rfl) inv.ctx (by rw [ht]; intro h; cases h)
            (by simp [zip_toList, toList]) ?_ ?_
          · intro hc
            refine key (n' := k + 1) ⟨bl, nl, ⟨br, nr, rfl, ht, inv.ctx⟩, fun _ => rfl, fun _ => Or.inl hcl, ?_, Or.inl rfl, ?_⟩ ?_ ?_
            · intro h; cases h
            · intro f hf
              rcases List.mem_cons.1 hf with rfl | hf
              · simpa using hc
              · exact inv.dirs f hf
            · simp [fuelFor, plen, hc] at hf ⊢; omega
            · simp [zip_toList, toList, leftOf, rightOf]
          · intro hc
            refine key (n' := k + 1) ⟨br, nr, ⟨bl, nl, rfl, ht, inv.ctx⟩, fun _ => rfl, fun _ => Or.inl hcr, ?_, Or.inl rfl, ?_⟩ ?_ ?_
            · intro h; cases h
            · intro f hf
              rcases List.mem_cons.1 hf with rfl | hf
              · simpa using hc
              · exact inv.dirs f hf
            · simp [fuelFor, plen, hc] at hf ⊢; omega
            · simp [zip_toList, toList, leftOf, rightOf]
        | true =>
          rcases inv.rot ht with h | ⟨p, g, rest, rfl, hg⟩
          · exact (h ⟨rfl, rfl⟩).elim
          · obtain ⟨c1, c2, c3⟩ := inv.ctx
            simp only [topRed] at ht
            rw [ht, if_pos rfl] at c3
            obtain ⟨c3, c4, c5⟩ := c3
            simp only [topRed] at c4
            obtain ⟨c6, c7, c8⟩ := c5
            rw [c4, if_neg (by simp)] at c8
            have dp := inv.dirs p (by simp)
            have dg := inv.dirs g (by simp)
            have drest : Dirs cmp data rest := fun f hf => inv.dirs f (by simp [hf])
            obtain ⟨pd, pr, px, po⟩ := p
            obtain ⟨gd, gr, gx, go⟩ := g
            simp only at ht c1 c2 c3 c4 c6 c7 hg dp dg
            subst ht c4
            simp only [if_true, Nat.lt_irrefl, if_false, gt_iff_lt]
            cases pd <;> cases gd
            · simp only [rotate, if_true, Bool.false_eq_true, if_false]
              refine good_of_focus (n := k + 1) (.red bl br) (.red nl nr rfl rfl) ⟨.red c1 c6, .red c2 c7 c3 hg, c8⟩ (by intro h; cases h)
                (by simp [zip_toList, toList, leftOf, rightOf]) ?_ ?_ <;> intro hc
              · refine key (n' := k + 1) ⟨bl, nl, ⟨br, nr, rfl, rfl, ⟨.red c1 c6, .red c2 c7 c3 hg, c8⟩⟩, fun _ => rfl, fun _ => Or.inl hcl, ?_, Or.inr (Or.inl ⟨rfl, hcl⟩), ?_⟩ ?_ ?_
                · intro h; cases h
                · intro f hf
                  rcases List.mem_cons.1 hf with rfl | hf
                  · simpa using hc
                  · rcases List.mem_cons.1 hf with rfl | hf
                    · exact dp
                    · exact drest f hf
                · simp [fuelFor, plen, hc] at hf ⊢; omega
                · simp [zip_toList, toList, leftOf, rightOf]
              · refine key (n' := k + 1) ⟨br, nr, ⟨bl, nl, rfl, rfl, ⟨.red c1 c6, .red c2 c7 c3 hg, c8⟩⟩, fun _ => rfl, fun _ => Or.inl hcr, ?_, Or.inr (Or.inl ⟨rfl, hcr⟩), ?_⟩ ?_ ?_
                · intro h; cases h
                · intro f hf
                  rcases List.mem_cons.1 hf with rfl | hf
                  · simpa using hc
                  · rcases List.mem_cons.1 hf with rfl | hf
                    · exact dp
                    · exact drest f hf
                · simp [fuelFor, plen, hc] at hf ⊢; omega
                · simp [zip_toList, toList, leftOf, rightOf]
            · simp only [if_true, Bool.false_eq_true, if_false] at dp dg
              simp only [rotate, if_true, Bool.false_eq_true, if_false, reduceCtorEq]
              refine good_of_focus (n := k + 2) (.black (.red c6 bl) (.red br c1)) (.black (.red c7 nl hg rfl) (.red nr c2 rfl c3)) c8 (fun _ => rfl)
                (by simp [zip_toList, toList, leftOf, rightOf]) ?_ ?_ <;> intro hc
              · have hn : CalmNext cmp data (node true gx go (node false lx ll lr)) := by simpa [CalmNext, dg] using hcl
                refine key (n' := k + 1) ⟨(.red c6 bl), (.red c7 nl hg rfl), ⟨(.red br c1), (.red nr c2 rfl c3), c8⟩, ?_, ?_, fun _ => Or.inl hn, Or.inr (Or.inr ⟨rfl, rfl, hn⟩), ?_⟩ ?_ ?_
                · intro h; cases h
                · intro h; cases h
                · intro f hf
                  rcases List.mem_cons.1 hf with rfl | hf
                  · simpa using hc
                  · exact drest f hf
                · simp [fuelFor, plen, hc, dp, dg] at hf ⊢; omega
                · simp [zip_toList, toList, leftOf, rightOf]
              · have hn : CalmNext cmp data (node true px (node false rx rl rr) po) := by simpa [CalmNext, dp] using hcr
                refine key (n' := k + 1) ⟨(.red br c1), (.red nr c2 rfl c3), ⟨(.red c6 bl), (.red c7 nl hg rfl), c8⟩, ?_, ?_, fun _ => Or.inl hn, Or.inr (Or.inr ⟨rfl, rfl, hn⟩), ?_⟩ ?_ ?_
                · intro h; cases h
                · intro h; cases h
                · intro f hf
                  rcases List.mem_cons.1 hf with rfl | hf
                  · simpa using hc
                  · exact drest f hf
                · simp [fuelFor, plen, hc, dp, dg] at hf ⊢; omega
                · simp [zip_toList, toList, leftOf, rightOf]
            · simp only [if_true, Bool.false_eq_true, if_false] at dp dg
              simp only [rotate, if_true, Bool.false_eq_true, if_false, reduceCtorEq]
              refine good_of_focus (n := k + 2) (.black (.red c1 bl) (.red br c6)) (.black (.red c2 nl c3 rfl) (.red nr c7 rfl hg)) c8 (fun _ => rfl)
                (by simp [zip_toList, toList, leftOf, rightOf]) ?_ ?_ <;> intro hc
              · have hn : CalmNext cmp data (node true px po (node false lx ll lr)) := by simpa [CalmNext, dp] using hcl
                refine key (n' := k + 1) ⟨(.red c1 bl), (.red c2 nl c3 rfl), ⟨(.red br c6), (.red nr c7 rfl hg), c8⟩, ?_, ?_, fun _ => Or.inl hn, Or.inr (Or.inr ⟨rfl, rfl, hn⟩), ?_⟩ ?_ ?_
                · intro h; cases h
                · intro h; cases h
                · intro f hf
                  rcases List.mem_cons.1 hf with rfl | hf
                  · simpa using hc
                  · exact drest f hf
                · simp [fuelFor, plen, hc, dp, dg] at hf ⊢; omega
                · simp [zip_toList, toList, leftOf, rightOf]
              · have hn : CalmNext cmp data (node true gx (node false rx rl rr) go) := by simpa [CalmNext, dg] using hcr
                refine key (n' := k + 1) ⟨(.red br c6), (.red nr c7 rfl hg), ⟨(.red c1 bl), (.red c2 nl c3 rfl), c8⟩, ?_, ?_, fun _ => Or.inl hn, Or.inr (Or.inr ⟨rfl, rfl, hn⟩), ?_⟩ ?_ ?_
                · intro h; cases h
                · intro h; cases h
                · intro f hf
                  rcases List.mem_cons.1 hf with rfl | hf
                  · simpa using hc
                  · exact drest f hf
                · simp [fuelFor, plen, hc, dp, dg] at hf ⊢; omega
                · simp [zip_toList, toList, leftOf, rightOf]
            · simp only [rotate, if_true, Bool.false_eq_true, if_false]
              refine good_of_focus (n := k + 1) (.red bl br) (.red nl nr rfl rfl) ⟨.red c6 c1, .red c7 c2 hg c3, c8⟩ (by intro h; cases h)
                (by simp [zip_toList, toList, leftOf, rightOf]) ?_ ?_ <;> intro hc
              · refine key (n' := k + 1) ⟨bl, nl, ⟨br, nr, rfl, rfl, ⟨.red c6 c1, .red c7 c2 hg c3, c8⟩⟩, fun _ => rfl, fun _ => Or.inl hcl, ?_, Or.inr (Or.inl ⟨rfl, hcl⟩), ?_⟩ ?_ ?_
                · intro h; cases h
                · intro f hf
                  rcases List.mem_cons.1 hf with rfl | hf
                  · simpa using hc
                  · rcases List.mem_cons.1 hf with rfl | hf
                    · exact dp
                    · exact drest f hf
                · simp [fuelFor, plen, hc] at hf ⊢; omega
                · simp [zip_toList, toList, leftOf, rightOf]
              · refine key (n' := k + 1) ⟨br, nr, ⟨bl, nl, rfl, rfl, ⟨.red c6 c1, .red c7 c2 hg c3, c8⟩⟩, fun _ => rfl, fun _ => Or.inl hcr, ?_, Or.inr (Or.inl ⟨rfl, hcr⟩), ?_⟩ ?_ ?_
                · intro h; cases h
                · intro f hf
                  rcases List.mem_cons.1 hf with rfl | hf
                  · simpa using hc
                  · rcases List.mem_cons.1 hf with rfl | hf
                    · exact dp
                    · exact drest f hf
                · simp [fuelFor, plen, hc] at hf ⊢; omega
                · simp [zip_toList, toList, leftOf, rightOf]

/-- a red-black tree: ordered, black root, no red node with a red child, equal black heights -/
structure Valid (cmp : α → α → Ordering) (t : RB α) : Prop where
  ordered : Ordered cmp t
  root : t.isRed = false
  norr : NoRR t
  bh : ∃ m, BH t m

theorem plen_le (cmp : α → α → Ordering) (data : α) (t : RB α) : t.plen cmp data ≤ t.size + 1 := by
  induction t with
  | nil => simp [plen]
  | node c x l r ihl ihr =>
    simp only [plen, size]
    split <;> omega

theorem blacken_toList (t : RB α) : (blacken t).toList = t.toList := by cases t <;> rfl
theorem blacken_norr {t : RB α} (h : NoRR t) : NoRR (blacken t) := by
  cases h with
  | nil => exact .nil
  | red a b _ _ => exact .black a b
  | black a b => exact .black a b
theorem blacken_bh {t : RB α} (h : ∃ m, BH t m) : ∃ m, BH (blacken t) m := by
  obtain ⟨m, h⟩ := h
  cases h with
  | nil => exact ⟨_, .nil⟩
  | red a b => exact ⟨_, .black a b⟩
  | black a b => exact ⟨_, .black a b⟩

theorem CmpOK.eq_comm {cmp : α → α → Ordering} (ok : CmpOK cmp) {a b : α} (h : cmp a b = .eq) : cmp b a = .eq := by
  rw [← ok.congr a b a h]; exact ok.refl a

/-- `jsw_rbinsert` on a valid tree -/
theorem insert_valid {cmp : α → α → Ordering} (ok : CmpOK cmp) {data : α} {t : RB α} (hv : Valid cmp t) :
    ∃ t', insert cmp data t = .ok t' ∧ Valid cmp t' ∧
      ((t'.toList = t.toList ∧ ∃ x ∈ t.toList, cmp x data = .eq) ∨
       ((∀ x ∈ t.toList, cmp x data ≠ .eq) ∧ ∃ L R, t.toList = L ++ R ∧ t'.toList = L ++ data :: R)) := by
  cases t with
  | nil =>
    refine ⟨_, rfl, ⟨by simp [Ordered, toList], rfl, .black .nil .nil, _, .black .nil .nil⟩,
      Or.inr ⟨by simp [toList], [], [], rfl, rfl⟩⟩
  | node c x l r =>
    have hc : c = false := hv.root
    subst hc
    obtain ⟨m, hm⟩ := hv.bh
    have hinv : Inv cmp data 0 (node false x l r) [] m :=
      ⟨hm, hv.norr, trivial, fun _ => rfl, (by intro h; cases h), (by intro h; cases h), Or.inl rfl, (by intro f hf; cases hf)⟩
    have hf : fuelFor cmp data 0 (node false x l r) ≤ 2 * (node false x l r).size + 3 := by
      have := plen_le cmp data (node false x l r)
      simp only [fuelFor]; split <;> omega
    obtain ⟨t, h1, h2, h3, h4⟩ := insertLoop_good ok _ hinv hf hv.ordered
    simp only [insert, h1]
    have ho := hv.ordered
    refine ⟨_, rfl, ⟨?_, by cases t <;> rfl, blacken_norr h3, blacken_bh h2⟩, ?_⟩
    · rw [Ordered, blacken_toList]
      simp only [zip] at h4
      rcases h4 with ⟨h4, _⟩ | ⟨L, R, h4, h5, h6, h7⟩
      · rw [h4]; exact ho
      · rw [h5]
        rw [Ordered, h4] at ho
        rw [List.pairwise_append] at ho ⊢
        obtain ⟨o1, o2, o3⟩ := ho
        refine ⟨o1, List.pairwise_cons.2 ⟨fun a ha => (ok.swap _ _).1 (h7 a ha), o2⟩, ?_⟩
        intro a ha b hb
        rcases List.mem_cons.1 hb with rfl | hb
        · exact h6 a ha
        · exact o3 a ha b hb
    · rw [blacken_toList]
      simp only [zip] at h4
      rcases h4 with h4 | ⟨L, R, h4, h5, h6, h7⟩
      · exact Or.inl h4
      · refine Or.inr ⟨?_, L, R, h4, h5⟩
        intro a ha
        rw [h4, List.mem_append] at ha
        rcases ha with ha | ha
        · rw [h6 a ha]; intro h; cases h
        · rw [h7 a ha]; intro h; cases h

/-- on an ordered tree `jsw_rbfind` finds the element equal to `data`, if there is one -/
theorem find_iff {cmp : α → α → Ordering} (ok : CmpOK cmp) {data : α} {t : RB α} (ho : Ordered cmp t) (x : α) :
    find cmp data t = some x ↔ x ∈ t.toList ∧ cmp x data = .eq := by
  constructor
  · exact find_some
  · rintro ⟨h1, h2⟩
    cases h : find cmp data t with
    | none => exact (find_none ok ho h x h1 h2).elim
    | some y =>
      obtain ⟨h3, h4⟩ := find_some h
      have hxy : cmp x y = .eq := by rw [ok.congr x data y h2]; exact ok.eq_comm h4
      have hyx : cmp y x = .eq := ok.eq_comm hxy
      have key : ∀ l : List α, l.Pairwise (fun a b => cmp a b = .lt) → x ∈ l → y ∈ l → x = y := by
        intro l hl hx hy
        induction l with
        | nil => cases hx
        | cons a l ih =>
          rw [List.pairwise_cons] at hl
          rcases List.mem_cons.1 hx with rfl | hx' <;> rcases List.mem_cons.1 hy with rfl | hy'
          · rfl
          · have := hl.1 y hy'; rw [hxy] at this; cases this
          · have := hl.1 x hx'; rw [hyx] at this; cases this
          · exact ih hl.2 hx' hy'
      rw [key _ ho h1 h3]

/-! ### height -/

/-- number of nodes on the longest path -/
def height : RB α → Nat
  | nil => 0
  | node _ _ l r => max l.height r.height + 1

theorem bh_size {t : RB α} {m : Nat} (h : BH t m) : 2 ^ m ≤ t.size + 1 := by
  induction h with
  | nil => simp [size]
  | red _ _ ih1 ih2 => simp only [size]; omega
  | black _ _ ih1 ih2 => simp only [size, Nat.pow_succ]; omega

theorem bh_height {t : RB α} {m : Nat} (h : BH t m) (hn : NoRR t) : t.height ≤ 2 * m + (if t.isRed then 1 else 0) := by
  induction h with
  | nil => simp [height]
  | @red x l r n _ _ ih1 ih2 =>
    cases hn with
    | red n1 n2 c1 c2 =>
      have h1 := ih1 n1; have h2 := ih2 n2
      rw [c1] at h1; rw [c2] at h2
      simp [height, isRed] at h1 h2 ⊢
      omega
  | @black x l r n _ _ ih1 ih2 =>
    cases hn with
    | black n1 n2 =>
      have h1 := ih1 n1; have h2 := ih2 n2
      have e1 : (if l.isRed = true then 1 else 0) ≤ 1 := by split <;> omega
      have e2 : (if r.isRed = true then 1 else 0) ≤ 1 := by split <;> omega
      simp only [height, isRed, Bool.false_eq_true, if_false]
      omega

theorem Valid.height_le {cmp : α → α → Ordering} {t : RB α} (h : Valid cmp t) : t.height ≤ 2 * Nat.log2 (t.size + 1) := by
  obtain ⟨m, hm⟩ := h.bh
  have h1 := bh_height hm h.norr
  rw [h.root] at h1
  have h2 := (Nat.le_log2 (by omega)).2 (bh_size hm)
  simp at h1
  omega

end BeTree.RB
