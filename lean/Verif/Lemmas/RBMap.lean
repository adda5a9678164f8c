import Verif.Lemmas.RB
/-
The red-black tree with more data at its nodes than the comparison looks at.
-/
namespace BeTree
namespace RB
variable {α β : Type}

/-- another tree of the same shape -/
def mapData (f : α → β) : RB α → RB β
  | nil => nil
  | node c x l r => node c (f x) (l.mapData f) (r.mapData f)

def Frame.mapData (f : α → β) (a : Frame α) : Frame β := { dir := a.dir, red := a.red, x := f a.x, other := a.other.mapData f }

theorem isRed_map (f : α → β) (t : RB α) : (t.mapData f).isRed = t.isRed := by cases t <;> rfl

theorem topRed_map (f : α → β) (p : List (Frame α)) : topRed (p.map (Frame.mapData f)) = topRed p := by cases p <;> rfl

theorem flip_map (f : α → β) (t : RB α) : flip (t.mapData f) = (flip t).mapData f := by
  cases t with
  | nil => rfl
  | node c x l r =>
    cases l with
    | nil => rfl
    | node cl xl ll lr =>
      cases r with
      | nil => cases cl <;> rfl
      | node cr xr rl rr => cases cl <;> cases cr <;> rfl

theorem plug_map (f : α → β) (a : Frame α) (t : RB α) : plug (a.mapData f) (t.mapData f) = (plug a t).mapData f := by
  cases h : a.dir <;> simp [plug, Frame.mapData, h, mapData]

theorem zip_map (f : α → β) (p : List (Frame α)) : ∀ t : RB α, zip (p.map (Frame.mapData f)) (t.mapData f) = (zip p t).mapData f := by
  induction p with
  | nil => intro t; rfl
  | cons a p ih => intro t; simp only [List.map_cons, zip, plug_map, ih]

theorem size_map (f : α → β) (t : RB α) : (t.mapData f).size = t.size := by
  induction t with
  | nil => rfl
  | node c x l r ihl ihr => simp [mapData, size, ihl, ihr]

theorem blacken_map (f : α → β) (t : RB α) : blacken (t.mapData f) = (blacken t).mapData f := by cases t <;> rfl

theorem find_map (f : α → β) (cmp : β → β → Ordering) (d : α) (t : RB α) :
    find cmp (f d) (t.mapData f) = (find (fun a b => cmp (f a) (f b)) d t).map f := by
  induction t with
  | nil => rfl
  | node c x l r ihl ihr =>
    simp only [mapData, find]
    cases cmp (f x) (f d) <;> simp_all

theorem rotate_map (f : α → β) (q : RB α) (p g : Frame α) (rest : List (Frame α)) :
    rotate (q.mapData f) (p.mapData f) (g.mapData f) (rest.map (Frame.mapData f)) =
      (rotate q p g rest).map (fun r => (r.1.mapData f, r.2.1.map (Frame.mapData f), r.2.2)) := by
  simp only [rotate]
  have e1 : (p.mapData f).dir = p.dir := rfl
  have e2 : (g.mapData f).dir = g.dir := rfl
  rw [e1, e2]
  by_cases h : p.dir = g.dir
  · simp only [h, if_true, Except.map]
    cases hg : g.dir <;> simp [Frame.mapData, mapData, h, hg]
  · simp only [h, if_false]
    cases q with
    | nil => rfl
    | node c x l r => cases hg : g.dir <;> simp [Frame.mapData, mapData, Except.map]

theorem insertLoop_map (f : α → β) (cmp : β → β → Ordering) (d : α) (fuel : Nat) : ∀ (cool : Nat) (q : RB α) (path : List (Frame α)),
    insertLoop cmp (f d) fuel cool (q.mapData f) (path.map (Frame.mapData f)) =
      (insertLoop (fun a b => cmp (f a) (f b)) d fuel cool q path).map (mapData f) := by
  induction fuel with
  | zero => intro cool q path; rfl
  | succ fuel ih =>
    intro cool q path
    have fin : ∀ (q : RB α) (path : List (Frame α)) (cool : Nat),
        (match (Except.ok (q.mapData f, path.map (Frame.mapData f), cool) : Except Fault (RB β × List (Frame β) × Nat)) with
          | .error e => .error e
          | .ok (nil, _, _) => .error .ub
          | .ok (node red x l r, path, cool) =>
            match cmp x (f d) with
            | .eq => .ok (zip path (node red x l r))
            | .lt => insertLoop cmp (f d) fuel cool r ({ dir := true, red := red, x := x, other := l } :: path)
            | .gt => insertLoop cmp (f d) fuel cool l ({ dir := false, red := red, x := x, other := r } :: path)) =
        ((match (Except.ok (q, path, cool) : Except Fault (RB α × List (Frame α) × Nat)) with
          | .error e => .error e
          | .ok (nil, _, _) => .error .ub
          | .ok (node red x l r, path, cool) =>
            match cmp (f x) (f d) with
            | .eq => .ok (zip path (node red x l r))
            | .lt => insertLoop (fun a b => cmp (f a) (f b)) d fuel cool r ({ dir := true, red := red, x := x, other := l } :: path)
            | .gt => insertLoop (fun a b => cmp (f a) (f b)) d fuel cool l ({ dir := false, red := red, x := x, other := r } :: path)) :
              Except Fault (RB α)).map (mapData f) := by
      intro q path cool
      cases q with
      | nil => rfl
      | node c x l r =>
        simp only [mapData]
        cases cmp (f x) (f d) with
        | eq =>
          show Except.ok _ = Except.ok _
          exact congrArg _ (zip_map f path (node c x l r))
        | lt => exact ih cool r ({ dir := true, red := c, x := x, other := l } :: path)
        | gt => exact ih cool l ({ dir := false, red := c, x := x, other := r } :: path)
    have core : ∀ q' : RB α,
        (match (if (q'.mapData f).isRed && topRed (path.map (Frame.mapData f)) then
              if cool > 0 then .error .ub
              else
                match (path.map (Frame.mapData f)) with
                | p :: g :: rest => rotate (q'.mapData f) p g rest
                | _ => .error .ub
            else .ok (q'.mapData f, (path.map (Frame.mapData f)), cool - 1) : Except Fault (RB β × List (Frame β) × Nat)) with
          | .error e => .error e
          | .ok (nil, _, _) => .error .ub
          | .ok (node red x l r, path, cool) =>
            match cmp x (f d) with
            | .eq => .ok (zip path (node red x l r))
            | .lt => insertLoop cmp (f d) fuel cool r ({ dir := true, red := red, x := x, other := l } :: path)
            | .gt => insertLoop cmp (f d) fuel cool l ({ dir := false, red := red, x := x, other := r } :: path) : Except Fault (RB β)) =
        (match (if (q').isRed && topRed path then
              if cool > 0 then .error .ub
              else
                match path with
                | p :: g :: rest => rotate (q') p g rest
                | _ => .error .ub
            else .ok (q', path, cool - 1) : Except Fault (RB α × List (Frame α) × Nat)) with
          | .error e => .error e
          | .ok (nil, _, _) => .error .ub
          | .ok (node red x l r, path, cool) =>
            match cmp (f x) (f d) with
            | .eq => .ok (zip path (node red x l r))
            | .lt => insertLoop (fun a b => cmp (f a) (f b)) d fuel cool r ({ dir := true, red := red, x := x, other := l } :: path)
            | .gt => insertLoop (fun a b => cmp (f a) (f b)) d fuel cool l ({ dir := false, red := red, x := x, other := r } :: path) : Except Fault (RB α)).map (mapData f) := by
      intro q'
      rw [isRed_map, topRed_map]
      by_cases hr : (q'.isRed && topRed path) = true
      · simp only [hr, if_true]
        by_cases hc : cool > 0
        · simp only [hc, if_true]; rfl
        · simp only [hc, if_false]
          cases path with
          | nil => rfl
          | cons p ps =>
            cases ps with
            | nil => rfl
            | cons g rest =>
              simp only [List.map_cons]
              rw [rotate_map]
              cases rotate q' p g rest with
              | error e => rfl
              | ok r =>
                obtain ⟨r1, r2, r3⟩ := r
                exact fin r1 r2 r3
      · simp only [hr]
        exact fin q' path (cool - 1)
    cases q with
    | nil => exact core (node true d nil nil)
    | node c x l r =>
      have := core (flip (node c x l r))
      rw [← flip_map] at this
      exact this

theorem insert_map (f : α → β) (cmp : β → β → Ordering) (d : α) (t : RB α) :
    insert cmp (f d) (t.mapData f) = (insert (fun a b => cmp (f a) (f b)) d t).map (mapData f) := by
  cases t with
  | nil => rfl
  | node c x l r =>
    have := insertLoop_map f cmp d (2 * (node c x l r).size + 3) 0 (node c x l r) []
    simp only [insert, mapData] at this ⊢
    have hs : (node c (f x) (l.mapData f) (r.mapData f)).size = (node c x l r).size := size_map f (node c x l r)
    rw [hs]
    simp only [List.map_nil] at this
    rw [this]
    cases insertLoop (fun a b => cmp (f a) (f b)) d (2 * (node c x l r).size + 3) 0 (node c x l r) [] with
    | error e => rfl
    | ok t => exact congrArg Except.ok (blacken_map f t)

theorem toList_map (f : α → β) (t : RB α) : (t.mapData f).toList = t.toList.map f := by
  induction t with
  | nil => rfl
  | node c x l r ihl ihr => simp [mapData, toList, ihl, ihr]

theorem norr_map {f : α → β} : ∀ {t : RB α}, NoRR (t.mapData f) → NoRR t := by
  intro t
  induction t with
  | nil => intro _; exact .nil
  | node c x l r ihl ihr =>
    intro h
    cases h with
    | black h1 h2 => exact .black (ihl h1) (ihr h2)
    | red h1 h2 h3 h4 => exact .red (ihl h1) (ihr h2) (by rw [← isRed_map f]; exact h3) (by rw [← isRed_map f]; exact h4)

theorem bh_map {f : α → β} : ∀ {t : RB α} {m : Nat}, BH (t.mapData f) m → BH t m := by
  intro t
  induction t with
  | nil => intro m h; cases h; exact .nil
  | node c x l r ihl ihr =>
    intro m h
    cases h with
    | black h1 h2 => exact .black (ihl h1) (ihr h2)
    | red h1 h2 => exact .red (ihl h1) (ihr h2)

theorem valid_map {f : α → β} {cmp : β → β → Ordering} {t : RB α} (h : Valid cmp (t.mapData f)) : Valid (fun a b => cmp (f a) (f b)) t := by
  refine ⟨?_, by rw [← isRed_map f]; exact h.root, norr_map h.norr, ?_⟩
  · have := h.ordered
    simp only [Ordered, toList_map, List.pairwise_map] at this
    exact this
  · obtain ⟨m, hm⟩ := h.bh
    exact ⟨m, bh_map hm⟩

end RB
end BeTree
