import Verif.Props.RBFail
/-
Lemmas for C72: an insertion that finds no memory on a small set.
-/
namespace BeTree
namespace RB
variable {α : Type}

theorem rotate_length {q q' : RB α} {p g : Frame α} {rest path' : List (Frame α)} {c : Nat} (h : rotate q p g rest = .ok (q', path', c)) :
    (path'.length = rest.length + 1) ∨ (path'.length = rest.length ∧ c = 2) := by
  unfold rotate at h
  split at h
  · cases h; left; rfl
  · split at h
    · cases h
    · split at h <;> cases h <;> exact Or.inr ⟨rfl, rfl⟩

/-- from here on the node at the top stays there -/
theorem failLoop_keeps {cmp : α → α → Ordering} {data : α} (fuel : Nat) :
    ∀ (cool : Nat) (q : RB α) (path : List (Frame α)) (t : RB α),
      (3 ≤ path.length ∨ (path.length = 2 ∧ (0 < cool ∨ ((flip q).isRed && topRed path) = false))) →
      failLoop cmp data fuel cool (.onPath 0) q path = .ok (t, false) → t.toList = (zip path q).toList := by
  induction fuel with
  | zero => intro cool q path t _ h; cases h
  | succ fuel ih =>
    intro cool q path t hp h
    cases q with
    | nil =>
      cases h
      simp [RootAt.tree]
    | node c x l rt =>
      have hf : (zip path (flip (node c x l rt))).toList = (zip path (node c x l rt)).toList := by
        rw [zip_toList, zip_toList, flip_toList]
      rw [← hf]
      simp only [failLoop] at h
      generalize flip (node c x l rt) = q at *
      by_cases hc : (q.isRed && topRed path) = true
      · rw [if_pos hc] at h
        by_cases hcool : cool > 0
        · rw [if_pos hcool] at h; cases h
        · rw [if_neg hcool] at h
          have hp3 : 3 ≤ path.length := by
            rcases hp with hp | ⟨_, hp | hp⟩
            · exact hp
            · exact absurd hp hcool
            · rw [hp] at hc; cases hc
          match path with
          | [] => cases h
          | [_] => cases h
          | p :: g :: rest =>
            have hrest : 0 < rest.length := by simp at hp3; omega
            dsimp only at h
            cases hrot : rotate q p g rest with
            | error e => rw [hrot] at h; cases h
            | ok v =>
              obtain ⟨q', path', cool'⟩ := v
              rw [hrot] at h
              have hr : ∀ b, RootAt.rotate (.onPath 0) q p g rest b = .onPath 0 := by
                intro b; simp [RootAt.rotate, hrest]
              have hl := rotate_length hrot
              rw [← rotate_toList hrot]
              cases q' with
              | nil => cases h
              | node red x l rt =>
                simp only [hr] at h
                have hq : ∀ (f : Frame α) (q : RB α), 3 ≤ (f :: path').length ∨ ((f :: path').length = 2 ∧ (0 < cool' ∨ ((flip q).isRed && topRed (f :: path')) = false)) := by
                  intro f q
                  simp only [List.length_cons]
                  rcases hl with hl | ⟨hl, hc2⟩
                  · left; omega
                  · by_cases h1 : rest.length = 1
                    · right; exact ⟨by omega, Or.inl (by omega)⟩
                    · left; omega
                cases hx : cmp x data with
                | eq => rw [hx] at h; cases h
                | lt => rw [hx] at h; have key := fun hh => ih _ _ _ _ hh h; exact key (hq _ _)
                | gt => rw [hx] at h; have key := fun hh => ih _ _ _ _ hh h; exact key (hq _ _)
      · rw [if_neg hc] at h
        cases q with
        | nil => cases h
        | node red x l rt =>
          dsimp only at h
          have h2 : 2 ≤ path.length := by omega
          cases hx : cmp x data with
          | eq => rw [hx] at h; cases h
          | lt => rw [hx] at h; have key := fun hh => ih _ _ _ _ hh h; exact key (Or.inl (by simp only [List.length_cons]; omega))
          | gt => rw [hx] at h; have key := fun hh => ih _ _ _ _ hh h; exact key (Or.inl (by simp only [List.length_cons]; omega))

theorem flip_red {c : Bool} {x : α} {l r : RB α} (h : (flip (node c x l r)).isRed = true) : c = true ∨ (l.isRed = true ∧ r.isRed = true) := by
  cases c with
  | true => exact Or.inl rfl
  | false =>
    right
    cases l with
    | nil => simp [flip, isRed] at h
    | node lc lx ll lr =>
      cases r with
      | nil => cases lc <;> simp [flip, isRed] at h
      | node rc rx rl rr => cases lc <;> cases rc <;> simp_all [flip, isRed]

theorem size_of_bh {t : RB α} {n : Nat} (h : BH t (n + 1)) : 1 ≤ t.size := by
  cases h <;> simp [size]

theorem red_size {t : RB α} (h : t.isRed = true) : 1 ≤ t.size := by
  cases t with
  | nil => cases h
  | node => simp [size]

theorem flip_isRed_size {q : RB α} {n : Nat} (hb : BH q n) (hq : q.isRed = false) (h : (flip q).isRed = true) : 1 ≤ n ∧ 3 ≤ q.size := by
  cases hb with
  | nil => cases h
  | red => cases hq
  | black hl hr =>
    rcases flip_red h with h | ⟨h1, h2⟩
    · cases h
    · have := red_size h1; have := red_size h2
      simp only [size]
      omega

/-- in a tree of fewer than seven nodes no rotation is made at the top: `s` and `node c x a b` are the subtrees of the top, the second one is visited -/
theorem no_rotation {s a b : RB α} {c : Bool} {x : α} {n : Nat} (hs : BH s n) (ht : BH (node c x a b) n) (hn : NoRR (node c x a b))
    (hcs : c = true → s.isRed = false) (hsz : s.size + (node c x a b).size < 6) {red : Bool} {y : α} {l r : RB α}
    (hf : flip (node c x a b) = node red y l r) : ((flip l).isRed && red) = false ∧ ((flip r).isRed && red) = false := by
  cases hn with
  | red hl hr cl cr =>
    have : flip (node true x a b) = node true x a b := by
      cases a with
      | nil => rfl
      | node ac _ _ _ =>
        cases ac
        · rfl
        · cases cl
    rw [this] at hf
    cases hf
    cases ht with
    | red h1 h2 =>
      have hs0 := hcs rfl
      simp only [size] at hsz
      constructor
      · cases hh : (flip a).isRed with
        | false => rfl
        | true =>
          obtain ⟨k1, k2⟩ := flip_isRed_size h1 cl hh
          obtain ⟨m, rfl⟩ : ∃ m, n = m + 1 := ⟨n - 1, by omega⟩
          have := size_of_bh h2; have := size_of_bh hs
          omega
      · cases hh : (flip b).isRed with
        | false => rfl
        | true =>
          obtain ⟨k1, k2⟩ := flip_isRed_size h2 cr hh
          obtain ⟨m, rfl⟩ : ∃ m, n = m + 1 := ⟨n - 1, by omega⟩
          have := size_of_bh h1; have := size_of_bh hs
          omega
  | black hl hr =>
    cases a with
    | nil => cases hf; simp
    | node ac ax al ar =>
      cases ac with
      | false => cases hf; simp
      | true =>
        cases b with
        | nil => cases hf; simp
        | node bc bx bl br =>
          cases bc with
          | false => cases hf; simp
          | true =>
            cases hf
            cases hl with
            | red _ _ c1 c2 =>
              cases hr with
              | red _ _ c3 c4 =>
                have z : ∀ {u : α} {p q : RB α}, p.isRed = false → (flip (node false u p q)).isRed = false := by
                  intro u p q hp
                  cases hz : (flip (node false u p q)).isRed with
                  | false => rfl
                  | true =>
                    rcases flip_red hz with h | ⟨h, _⟩
                    · cases h
                    · rw [hp] at h; cases h
                rw [z c1, z c3]
                simp

/-- the second step of the loop: `f` is the top, `q` is the subtree that is visited -/
theorem failLoop_second {cmp : α → α → Ordering} {data : α} {fuel : Nat} {q t : RB α} {f : Frame α} {n : Nat} (hs : BH f.other n) (hb : BH q n)
    (hn : NoRR q) (hc : q.isRed = true → f.other.isRed = false) (hsz : f.other.size + q.size < 6)
    (h : failLoop cmp data fuel 0 (.onPath 0) q [f] = .ok (t, false)) : t.toList = (zip [f] q).toList := by
  cases fuel with
  | zero => cases h
  | succ fuel =>
    cases q with
    | nil =>
      cases h
      simp [RootAt.tree]
    | node c x a b =>
      have hf : (zip [f] (flip (node c x a b))).toList = (zip [f] (node c x a b)).toList := by
        rw [zip_toList, zip_toList, flip_toList]
      have hno := fun {red y l r} => no_rotation (red := red) (y := y) (l := l) (r := r) hs hb hn hc hsz
      rw [← hf]
      simp only [failLoop] at h
      generalize flip (node c x a b) = q at *
      by_cases hc : (q.isRed && topRed [f]) = true
      · rw [if_pos hc, if_neg (by omega)] at h
        cases h
      · rw [if_neg hc] at h
        cases q with
        | nil => cases h
        | node red x l rt =>
          dsimp only at h
          obtain ⟨h1, h2⟩ := hno rfl
          cases hx : cmp x data with
          | eq => rw [hx] at h; cases h
          | lt => rw [hx] at h; have key := fun hh => failLoop_keeps _ _ _ _ _ hh h; exact key (Or.inr ⟨rfl, Or.inr h2⟩)
          | gt => rw [hx] at h; have key := fun hh => failLoop_keeps _ _ _ _ _ hh h; exact key (Or.inr ⟨rfl, Or.inr h1⟩)

/-- the top after its colour flip -/
theorem flip_top {x : α} {l r : RB α} {n : Nat} (hl : BH l n) (hr : BH r n) (nl : NoRR l) (nr : NoRR r) :
    ∃ red l' r' m, flip (node false x l r) = node red x l' r' ∧ BH l' m ∧ BH r' m ∧ NoRR l' ∧ NoRR r' ∧ ¬ (l'.isRed = true ∧ r'.isRed = true) ∧
      l'.size = l.size ∧ r'.size = r.size := by
  by_cases hc : l.isRed = true ∧ r.isRed = true
  · cases hl with
    | nil => cases hc.1
    | black => cases hc.1
    | red l1 l2 =>
      cases hr with
      | nil => cases hc.2
      | black => cases hc.2
      | red r1 r2 =>
        cases nl with
        | red a b _ _ =>
          cases nr with
          | red c d _ _ =>
            exact ⟨true, _, _, n + 1, rfl, .black l1 l2, .black r1 r2, .black a b, .black c d, by simp [isRed], rfl, rfl⟩
  · refine ⟨false, l, r, n, ?_, hl, hr, nl, nr, hc, rfl, rfl⟩
    cases l with
    | nil => rfl
    | node lc lx ll lr =>
      cases r with
      | nil => cases lc <;> rfl
      | node rc rx rl rr => cases lc <;> cases rc <;> first | rfl | exact absurd ⟨rfl, rfl⟩ hc

theorem insertFail_small {cmp : α → α → Ordering} {data : α} {T t : RB α} (hv : Valid cmp T) (hsz : T.size < 7)
    (h : T.insertFail cmp data = .ok (t, false)) : t.toList = T.toList := by
  obtain ⟨n, hb⟩ := hv.bh
  have hn := hv.norr
  cases T with
  | nil => cases h; rfl
  | node c x l r =>
    simp only [insertFail, failLoop] at h
    have hroot : c = false := hv.root
    subst hroot
    cases hb with
    | black hl hr =>
      cases hn with
      | black nl nr =>
        simp only [size] at hsz
        rw [if_neg (by simp [topRed])] at h
        obtain ⟨red, l', r', m, e, bl, br, nl', nr', hnc, sl, sr⟩ := flip_top (x := x) hl hr nl nr
        rw [← flip_toList (node false x l r), e]
        rw [e] at h
        dsimp only at h
        cases hx : cmp x data with
        | eq => rw [hx] at h; cases h
        | lt =>
          rw [hx] at h
          have key := fun h1 h2 h3 h4 h5 => failLoop_second (n := m) h1 h2 h3 h4 h5 h
          exact key bl br nr' (fun q => by
            cases hz : l'.isRed with
            | false => rfl
            | true => exact absurd ⟨hz, q⟩ hnc) (by dsimp only; omega)
        | gt =>
          rw [hx] at h
          have key := fun h1 h2 h3 h4 h5 => failLoop_second (n := m) h1 h2 h3 h4 h5 h
          exact key br bl nl' (fun q => by
            cases hz : r'.isRed with
            | false => rfl
            | true => exact absurd ⟨q, hz⟩ hnc) (by dsimp only; omega)

theorem size_toList (t : RB α) : t.size = t.toList.length := by
  induction t with
  | nil => rfl
  | node c x l r ihl ihr => simp only [size, toList, List.length_append, List.length_cons, ihl, ihr]; omega

end RB
end BeTree
