import Verif.Props.Search
/-
C20: the interval computed for an expression and an attribute has room for every value with which the expression is true.
-/
namespace BeTree
open Spec

theorem getVariableBound_inv {d : Domain} {e : Expr} {b : Bound} (h : getVariableBound d e = .ok b) :
    ∃ p, boundInner d false e = .ok p ∧ b = { ty := d.bound.ty, lo := p.lo.getD d.bound.lo, hi := p.hi.getD d.bound.hi } := by
  unfold getVariableBound at h
  split at h
  · cases h
  · rename_i p hp
    refine ⟨p, hp, ?_⟩
    cases ht : d.bound.ty <;> rw [ht] at h <;> simp at h <;> exact h.symm

/-- the name of a variable number -/
theorem name_of_id {T : Config} (hs : Small T) {n : Str} {v : Nat} {d : Domain} (hn : tryGetIdForAttr T n = v)
    (hd : T.domains[v]? = some d) : lowerKey n = d.attr.attr := by
  have hlt := (List.getElem?_eq_some_iff.1 hd).1
  have hne : tryGetIdForAttr T n ≠ invalidId := by rw [hn]; have := hs.domains; omega
  obtain ⟨_, d', h1, h2⟩ := tryGetId_lt hne
  rw [hn, hd] at h1
  cases h1
  exact h2.symm

/-- no float value of the attributes, no value too close -/
theorem separated_of_none {lim : Str → Prop} {ev : Event} (h : ∀ (v : AttrVar) (x : Rat), lim v.attr → ev.get v ≠ some (.float x)) :
    ∀ {e : Expr}, Separated lim ev e
  | .leaf p => by
    cases p with
    | compare op v c => cases c <;> exact fun hl x hx => absurd hx (h _ x hl)
    | equality op v c => cases c <;> first | exact fun hl x hx => absurd hx (h _ x hl) | trivial
    | _ => trivial
  | .not e => separated_of_none h (e := e)
  | .and l r => ⟨separated_of_none h (e := l), separated_of_none h (e := r)⟩
  | .or l r => ⟨separated_of_none h (e := l), separated_of_none h (e := r)⟩

/-- the interval of a stored subscription has room for the value, in terms of variable numbers -/
theorem stored_within [Floats] (geo : GeoTest) (R : Rounding) (cap min : Nat) (decls : List (Str × Decl × Bool))
    (ops : List Op) (w : World) (h : (World.init (makeTree cap min decls)).run R ops = .ok w) (ho : Orderly decls ops w)
    (s : Sub) (hs : s ∈ w.tree.root.contents) (v : Nat) (d : Domain) (hd : w.tree.cfg.domains[v]? = some d)
    (b : Bound) (hb : getVariableBound d s.expr.erase = .ok b) :
    ∃ q ∈ w.live, q.id = s.id ∧ ∀ (ev : List EventVar) (env : Env) (val : Value), eventEnv w.tree.cfg ev = .ok env →
      env[v]? = some (some val) → Expr.InRange q.expr → BoundSafe (fun n => lowerKey n = d.attr.attr) false q.expr →
      Separated (fun n => tryGetIdForAttr w.tree.cfg n = v) (eventOf ev) q.expr →
      sat geo (constants q.consts) (eventOf ev) q.expr → Within b d.bound val := by
  have hall := history_ids ho.proper ho.ops ho.small h ho.ids
  obtain ⟨hw, _⟩ := run_traced (init_traced cap min decls) h
  obtain ⟨hpo, _⟩ := run_prune (makeTree_cfgOK (cap := cap) (min := min) ho.proper) (makeTree_tablesOK cap min decls) ho.small
    (fun o h => (ho.ops o h).1) h
  obtain ⟨q, hq, hm⟩ := stored_made hw ho.ids hs
  refine ⟨q, hq, hm.id.symm, fun ev env val he hv hin hsafe hsep hsat => ?_⟩
  have hvar := (hpo.cfg.doms v d hd).var
  obtain ⟨p, hp, rfl⟩ := getVariableBound_inv hb
  have hcov : Covers p val := by
    refine boundInner_covers (geo := geo) ho.small (run_tablesOK h) he hm.res (hall s hs) (inRange_parse hin)
      (d := d) (separated_parse (by rw [hvar]; exact hsep)) (by rw [hvar]; exact hv) (eventEnv_type he hd hv) (rev := false) ?_ hp ?_
    · exact boundSafe_parse (boundSafe_mono (fun n hn => name_of_id ho.small (by rw [← hvar]; exact hn) hd) hsafe)
    · simpa using (C15_reorder_preserves_sat geo (constants q.consts) (eventOf ev) q.expr).2 hsat
  refine ⟨?_, ?_⟩
  · cases hl : p.lo with
    | none => exact Or.inl rfl
    | some l => exact Or.inr (hcov.1 l hl)
  · cases hl : p.hi with
    | none => exact Or.inl rfl
    | some l => exact Or.inr (hcov.2 l hl)

/-- C20 (partial).  After any orderly history, for every subscription in the tree and every declared attribute: the interval the
index derives for the attribute from the subscription's expression has room for the event's value of the attribute, on every
event on which the request's expression is true.  Partial: below an odd number of `not`s no `and` may compare the attribute
(`C20_not_and_unsound`), and if it is a float attribute, values that differ by less than `DBL_EPSILON` from a number it is compared with
are excluded (`C20_float_unsound`). -/
theorem C20_bounds_sound_partial [Floats] (geo : GeoTest) (R : Rounding) (cap min : Nat) (decls : List (Str × Decl × Bool))
    (ops : List Op) (w : World) (h : (World.init (makeTree cap min decls)).run R ops = .ok w) (ho : Orderly decls ops w)
    (s : Sub) (hs : s ∈ w.tree.root.contents) (v : Nat) (d : Domain) (hd : w.tree.cfg.domains[v]? = some d)
    (b : Bound) (hb : getVariableBound d s.expr.erase = .ok b) :
    ∃ q ∈ w.live, q.id = s.id ∧ ∀ (ev : List EventVar) (env : Env) (val : Value), eventEnv w.tree.cfg ev = .ok env →
      env[v]? = some (some val) → Expr.InRange q.expr → BoundSafe (fun n => lowerKey n = d.attr.attr) false q.expr →
      Separated (fun n => lowerKey n = d.attr.attr) (eventOf ev) q.expr → sat geo (constants q.consts) (eventOf ev) q.expr →
      Within b d.bound val := by
  obtain ⟨q, hq, h1, h2⟩ := stored_within geo R cap min decls ops w h ho s hs v d hd b hb
  exact ⟨q, hq, h1, fun ev env val a1 a2 a3 a4 a5 a6 =>
    h2 ev env val a1 a2 a3 a4 (separated_mono (fun n hn => name_of_id ho.small hn hd) a5) a6⟩

/-- The same for an integer attribute, in plain terms: an end that is not the domain's is a true limit of the event's value. -/
theorem C20_int_bounds_sound_partial [Floats] (geo : GeoTest) (R : Rounding) (cap min : Nat) (decls : List (Str × Decl × Bool))
    (ops : List Op) (w : World) (h : (World.init (makeTree cap min decls)).run R ops = .ok w) (ho : Orderly decls ops w)
    (s : Sub) (hs : s ∈ w.tree.root.contents) (v : Nat) (d : Domain) (hd : w.tree.cfg.domains[v]? = some d)
    (lo hi lo' hi' : Int) (hdom : d.bound = ⟨.int, .i lo, .i hi⟩)
    (hb : getVariableBound d s.expr.erase = .ok ⟨.int, .i lo', .i hi'⟩) :
    ∃ q ∈ w.live, q.id = s.id ∧ ∀ (ev : List EventVar) (env : Env) (x : Int), eventEnv w.tree.cfg ev = .ok env →
      env[v]? = some (some (.int x)) → Expr.InRange q.expr → BoundSafe (fun n => lowerKey n = d.attr.attr) false q.expr →
      sat geo (constants q.consts) (eventOf ev) q.expr → (lo' = lo ∨ lo' ≤ x) ∧ (hi' = hi ∨ x ≤ hi') := by
  obtain ⟨q, hq, h1, h2⟩ := stored_within geo R cap min decls ops w h ho s hs v d hd _ hb
  refine ⟨q, hq, h1, fun ev env x a1 a2 a3 a4 a6 => ?_⟩
  have hsep : Separated (fun n => tryGetIdForAttr w.tree.cfg n = v) (eventOf ev) q.expr := by
    refine separated_of_none fun u y hn hy => ?_
    obtain ⟨z, hz, hrel⟩ := lookup_some ho.small a1 (v := u) (v' := ⟨u.attr, v⟩) ⟨rfl, hn.symm⟩ a2
    rw [hy] at hz
    cases hz
    cases hrel
  obtain ⟨b1, b2⟩ := h2 ev env (.int x) a1 a2 a3 a4 hsep a6
  rw [hdom] at b1 b2
  simpa [Value.members, Scalar.le] using And.intro b1 b2

/-- the interval after a history, for the attribute number `v`, of the subscription `id` -/
def historyBound (cap : Nat) (decls : List (Str × Decl × Bool)) (ops : List Op) (id v : Nat) : Option Bound :=
  match (World.init (makeTree cap 0 decls)).run exactRounding ops with
  | .error _ => none
  | .ok w =>
    match w.tree.find id, w.tree.cfg.domains[v]? with
    | some s, some d => (getVariableBound d s.expr.erase).toOption
    | _, _ => none

/-- Without the condition on `and`: `not (i < 5 and b)` is true on `{i: 3, b: false}`, but its interval for `i` is `[5, 10]`. -/
theorem C20_not_and_unsound :
    historyBound 1 [("i".toList, .int 0 10, false), ("b".toList, .bool, true)] [.insert ⟨1, [], .not (.and (exI .lt 5) exB)⟩] 1 0 =
      some ⟨.int, .i 5, .i 10⟩ ∧
    ¬ Within ⟨.int, .i 5, .i 10⟩ ⟨.int, .i 0, .i 10⟩ (.int 3) ∧
    sat exGeo [] (eventOf [⟨"i".toList, .int 3⟩, ⟨"b".toList, .bool false⟩]) (.not (.and (exI .lt 5) exB)) := by
  refine ⟨by decide +kernel, ?_, C03_not_and_missed.2⟩
  simp [Within, Value.members, Scalar.le]

/-- Without the condition on floats: `f = 0.0` is true on `f = 2^-60`, but its interval is `[0, 0]`. -/
theorem C20_float_unsound :
    historyBound 1 [("f".toList, .float (-10) 10, false)] [.insert ⟨1, [], exFloat 0⟩] 1 0 = some ⟨.float, .f 0, .f 0⟩ ∧
    ¬ Within ⟨.float, .f 0, .f 0⟩ ⟨.float, .f (-10), .f 10⟩ (.float (1 / 2 ^ 60)) ∧
    sat exGeo [] (eventOf [⟨"f".toList, .float (1 / 2 ^ 60)⟩]) (exFloat 0) := by
  refine ⟨by decide +kernel, ?_, C03_float_missed.2⟩
  simp only [Within, Value.members, List.mem_singleton, exists_eq_left, Scalar.le, decide_eq_true_eq]
  rintro ⟨_, h | h⟩
  · exact absurd h (by decide +kernel)
  · exact absurd h (by decide +kernel)

/-! ### a concrete case -/

/-- the interval of `i > 7 and not (i > 9)` for `i`, whose domain is then `[0, 39]` -/
example : ∃ s ∈ searchWorld.tree.root.contents, s.id = 2 ∧
    historyBound 2 searchDecls searchOps 2 0 = some ⟨.int, .i 8, .i 9⟩ := by decide +kernel

end BeTree
