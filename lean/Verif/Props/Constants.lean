import Verif.Spec.Caps
import Verif.Props.Search
/-
C31: constants.
-/
namespace BeTree
open Spec

theorem constName_eq (t : FreqType) : constantName t = (constName t).map String.toList := by cases t <;> rfl

theorem supplied_eq (cs : List Constant) (t : FreqType) :
    supplied cs t = (constantName t).bind (fun n => integerConstant n cs) := by
  unfold supplied integerConstant
  rw [constName_eq]
  cases constName t with
  | none => rfl
  | some n =>
    have : (fun c : Constant => c.name == n.toList) = (fun c : Constant => decide (c.name = n.toList)) := by
      funext c; by_cases h : c.name = n.toList <;> simp [h]
    simp only [Option.map_some, Option.bind_some, this]
    cases List.find? (fun c : Constant => decide (c.name = n.toList)) cs with
    | none => rfl
    | some c => obtain ⟨nm, v⟩ := c; cases v <;> rfl

theorem caps_parseBuild (e : Expr) : (caps (parseBuild e)).Perm (caps e) := by
  induction e with
  | leaf p => exact List.Perm.refl _
  | not e ih => exact ih
  | and l r ihl ihr =>
    simp only [parseBuild, mkAnd, caps]
    split
    · simp only [caps]; exact (ihr.append ihl).trans List.perm_append_comm
    · simp only [caps]; exact ihl.append ihr
  | or l r ihl ihr =>
    simp only [parseBuild, mkOr, caps]
    split
    · simp only [caps]; exact (ihr.append ihl).trans List.perm_append_comm
    · simp only [caps]; exact ihl.append ihr

/-- the caps of a stored expression against those of the expression as parsed -/
theorem caps_res {cfg : Config} {cs : List Constant} {e e' : Expr} (h : ExprRel (ResPred cfg cs) e e') :
    List.Forall₂ (fun f f' => ∃ i, supplied cs f.type = some i ∧ f'.id = (i % 2 ^ 32).toNat ∧
      capText f'.id f' = capText (i % 2 ^ 32) f) (caps e) (caps e') := by
  induction h with
  | leaf h =>
    cases h with
    | @freq f ns' v' now' name i hv hn hs hname hi =>
      refine .cons ⟨i, ?_, rfl, ?_⟩ .nil
      · rw [supplied_eq, hname, Option.bind_some, hi]
      · simp only [capText, hs.string]
        rw [Int.toNat_of_nonneg (Int.emod_nonneg _ (by decide))]
    | _ => exact .nil
  | not _ ih => exact ih
  | and _ _ ihl ihr => exact forall₂_append ihl ihr
  | or _ _ ihl ihr => exact forall₂_append ihl ihr
where
  forall₂_append {R : Frequency → Frequency → Prop} {a b c d : List Frequency} (h : List.Forall₂ R a b) (k : List.Forall₂ R c d) :
      List.Forall₂ R (a ++ c) (b ++ d) := by
    induction h with
    | nil => exact k
    | cons h _ ih => exact .cons h ih

theorem forall₂_left {R : Frequency → Frequency → Prop} {a b : List Frequency} (h : List.Forall₂ R a b) {x : Frequency} (hx : x ∈ a) :
    ∃ y ∈ b, R x y := by
  induction h with
  | nil => cases hx
  | cons h _ ih =>
    rcases List.mem_cons.1 hx with rfl | hx
    · exact ⟨_, List.mem_cons_self, h⟩
    · obtain ⟨y, hy, hr⟩ := ih hx
      exact ⟨y, List.mem_cons_of_mem _ hy, hr⟩

/-- C31: `betree_insert_with_constants` accepts an expression only if the constant needed by each of its frequency caps is
supplied. -/
theorem C31_insert_requires_constants (R : Rounding) (t t' : Tree) (id : Nat) (cs : List Constant) (e : Expr)
    (h : t.insert R id cs (parseBuild e) = .ok (true, t')) : ∀ f ∈ caps e, ∃ i, supplied cs f.type = some i := by
  intro f hf
  unfold Tree.insert at h
  split at h
  · cases h
  · cases h
  · rename_i sub cfg hprep
    have := caps_res (prepareInsert_res hprep).2
    obtain ⟨f', _, i, hi, _⟩ := forall₂_left this ((caps_parseBuild e).mem_iff.2 hf)
    exact ⟨i, hi⟩

/-- C31: so does `betree_make_sub`. -/
theorem C31_make_sub_requires_constants (t t' : Tree) (id : Nat) (cs : List Constant) (e : Expr) (s : Sub)
    (h : t.makeSub id cs (parseBuild e) = .ok (some s, t')) : ∀ f ∈ caps e, ∃ i, supplied cs f.type = some i := by
  intro f hf
  have := caps_res (makeSub_res h).2
  obtain ⟨f', _, i, hi, _⟩ := forall₂_left this ((caps_parseBuild e).mem_iff.2 hf)
  exact ⟨i, hi⟩

/-- The constants never prevent an expression from being accepted otherwise: the pass fails exactly when one is missing. -/
theorem assignConstants_isSome (cs : List Constant) (e : Expr) :
    (assignConstants cs e).isSome ↔ ∀ f ∈ caps e, ∃ i, supplied cs f.type = some i := by
  induction e with
  | leaf p =>
    cases p with
    | freq f =>
      simp only [assignConstants, assignConstantsPred, caps, List.mem_singleton, forall_eq, supplied_eq, Option.isSome_map]
      cases constantName f.type with
      | none => simp
      | some n =>
        simp only [Option.bind_some]
        cases h : integerConstant n cs <;> simp [h]
    | _ => simp [assignConstants, assignConstantsPred, caps]
  | not e ih => simpa only [assignConstants, caps, Option.isSome_map] using ih
  | and l r ihl ihr =>
    simp only [assignConstants, caps, List.mem_append]
    have : (∀ f, f ∈ caps l ∨ f ∈ caps r → ∃ i, supplied cs f.type = some i) ↔
        (assignConstants cs l).isSome ∧ (assignConstants cs r).isSome := by
      rw [ihl, ihr]
      exact ⟨fun h => ⟨fun f hf => h f (Or.inl hf), fun f hf => h f (Or.inr hf)⟩, fun h f hf => hf.elim (h.1 f) (h.2 f)⟩
    rw [this]
    cases assignConstants cs l <;> cases assignConstants cs r <;> simp
  | or l r ihl ihr =>
    simp only [assignConstants, caps, List.mem_append]
    have : (∀ f, f ∈ caps l ∨ f ∈ caps r → ∃ i, supplied cs f.type = some i) ↔
        (assignConstants cs l).isSome ∧ (assignConstants cs r).isSome := by
      rw [ihl, ihr]
      exact ⟨fun h => ⟨fun f hf => h f (Or.inl hf), fun f hf => h f (Or.inr hf)⟩, fun h f hf => hf.elim (h.1 f) (h.2 f)⟩
    rw [this]
    cases assignConstants cs l <;> cases assignConstants cs r <;> simp

/-- C31 over histories: each accepted request is stored with, for each of its frequency caps, that cap with the supplied
integer, converted to 32 bits, as its id. -/
theorem C31_stored_ids (R : Rounding) (cap min : Nat) (decls : List (Str × Decl × Bool)) (ops : List Op) (w : World)
    (h : (World.init (makeTree cap min decls)).run R ops = .ok w) (hids : (w.live.map Req.id).Nodup) (q : Req)
    (hq : q ∈ w.live) :
    ∃ s ∈ w.tree.root.contents, s.id = q.id ∧
      (∀ f ∈ caps q.expr, ∃ i, supplied q.consts f.type = some i) ∧
      ((caps s.expr.erase).map fun f => capText f.id f).Perm
        ((caps q.expr).map fun f => capText ((supplied q.consts f.type).getD 0 % 2 ^ 32) f) := by
  obtain ⟨hw, _⟩ := run_traced (init_traced cap min decls) h
  obtain ⟨s, hs, hm⟩ := live_stored hw hids hq
  have hc := caps_res hm.res
  refine ⟨s, hs, hm.id, fun f hf => ?_, ?_⟩
  · obtain ⟨f', _, i, hi, _⟩ := forall₂_left hc ((caps_parseBuild q.expr).mem_iff.2 hf)
    exact ⟨i, hi⟩
  · refine List.Perm.trans ?_ ((caps_parseBuild q.expr).map _)
    have key : ∀ a b, List.Forall₂ (fun (f f' : Frequency) => ∃ i, supplied q.consts f.type = some i ∧
        f'.id = (i % 2 ^ 32).toNat ∧ capText f'.id f' = capText (i % 2 ^ 32) f) a b →
        b.map (fun f => capText f.id f) = a.map fun f => capText ((supplied q.consts f.type).getD 0 % 2 ^ 32) f := by
      intro a b hab
      induction hab with
      | nil => rfl
      | cons h _ ih =>
        obtain ⟨i, h1, h2, h3⟩ := h
        simp only [List.map_cons, ih, h1, Option.getD_some, h3]
    rw [key _ _ hc]

/-- C31 (partial): the stored caps carry exactly the supplied ids.  Partial: supplied integers outside the range of
`uint32_t` are reduced to it, see `C31_large_id_truncated`. -/
theorem C31_evaluated_with_supplied_id_partial (R : Rounding) (cap min : Nat) (decls : List (Str × Decl × Bool))
    (ops : List Op) (w : World) (h : (World.init (makeTree cap min decls)).run R ops = .ok w)
    (hids : (w.live.map Req.id).Nodup) (q : Req) (hq : q ∈ w.live) (hr : ConstantsInRange q.consts) :
    ∃ s ∈ w.tree.root.contents, s.id = q.id ∧
      ((caps s.expr.erase).map fun f => some (capText f.id f)).Perm
        ((caps q.expr).map fun f => (supplied q.consts f.type).map fun i => capText i f) := by
  obtain ⟨s, hs, hid, hall, hp⟩ := C31_stored_ids R cap min decls ops w h hids q hq
  refine ⟨s, hs, hid, ?_⟩
  have hp' := hp.map some
  simp only [List.map_map] at hp'
  refine hp'.trans (List.Perm.of_eq ?_)
  apply List.map_congr_left
  intro f hf
  obtain ⟨i, hi⟩ := hall f hf
  have hrange : 0 ≤ i ∧ i < 2 ^ 32 := by
    unfold supplied at hi
    split at hi
    · cases hi
    · rename_i n hn
      split at hi
      · rename_i nm j hfind
        cases hi
        exact hr _ (List.mem_of_find?_eq_some hfind) _ rfl
      · cases hi
  simp only [Function.comp, hi, Option.getD_some, Option.map_some]
  rw [Int.emod_eq_of_lt hrange.1 hrange.2]

/-! ### concrete cases -/

def capDecls : List (Str × Decl × Bool) :=
  [("b".toList, .bool, true), ("frequency_caps".toList, .freq, true), ("now".toList, .int 0 1000, true)]

/-- `within_frequency_cap("flight", "ns", 5, 0) and b` -/
def exCap : Expr :=
  .and (.leaf (.freq ⟨⟨"frequency_caps".toList, 0⟩, .flight, ⟨"ns".toList, 0, 0⟩, 5, 0, ⟨"now".toList, 0⟩, 0⟩)) exB

/-- the stored caps after one insertion with a constant `flight_id` -/
def storedCaps (cs : List Constant) : Option (List CapText) :=
  match (World.init (makeTree 3 0 capDecls)).run exactRounding [.insert ⟨1, cs, exCap⟩] with
  | .error _ => none
  | .ok w => some (w.tree.root.contents.flatMap fun s => (caps s.expr.erase).map fun f => capText f.id f)

example : storedCaps [⟨"flight_id".toList, .int 20⟩] = some [⟨.flight, 20, "ns".toList, 5, 0⟩] := by decide +kernel
/-- the wrong constant: refused -/
example : storedCaps [⟨"campaign_id".toList, .int 20⟩] = some [] := by decide +kernel

/-- `flight_id = 2^32 + 7` is stored as 7: the expression then looks at the caps of flight 7. -/
theorem C31_large_id_truncated :
    storedCaps [⟨"flight_id".toList, .int (2 ^ 32 + 7)⟩] = some [⟨.flight, 7, "ns".toList, 5, 0⟩] := by decide +kernel

end BeTree
