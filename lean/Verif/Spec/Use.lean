import Verif.Spec.Concurrent
import Verif.Spec.EventObj
import Verif.Spec.Says
import Verif.Spec.Ordinary
/-
Specification: what the calls of a program that only asks should answer, if the tree holds the requests `tqs`.  Only the meaning of texts,
expressions and events is used, no code of the tree.
-/
namespace BeTree.Spec
open BeTree

/-- the request is true on the event -/
def TrueOn (geo : GeoTest) (q : TextReq) (ev : List EventVar) : Prop := ∃ e, Says q.text e ∧ sat geo (constants q.consts) (eventOf ev) e

/-- the event sets all mandatory attributes -/
def HasMandatory (decls : List (Str × Decl × Bool)) (ev : List EventVar) : Prop := ∀ d ∈ decls, d.2.2 = false → sets ev d.1

/-- What a search with the event returns, and what it adds to the report: it is refused exactly if a mandatory attribute is missing, and otherwise
adds the ids of the requests that are true on it, each once. -/
structure Found (geo : GeoTest) (decls : List (Str × Decl × Bool)) (tqs : List TextReq) (ev : List EventVar) (ok : Bool) (ids : List Nat) :
    Prop where
  accepted : ok = true ↔ HasMandatory decls ev
  refused : ok = false → ids = []
  once : ids.Nodup
  exact : ok = true → ∀ id, id ∈ ids ↔ ∃ q ∈ tqs, q.id = id ∧ TrueOn geo q ev

/-- the same for searches into one report, one after the other -/
def AllFound (geo : GeoTest) (decls : List (Str × Decl × Bool)) (tqs : List TextReq) : List (List EventVar) → List Bool → List Nat → Prop
  | [], oks, ids => oks = [] ∧ ids = []
  | ev :: evs, oks, ids => ∃ ok oks' mine rest, oks = ok :: oks' ∧ ids = mine ++ rest ∧ Found geo decls tqs ev ok mine ∧
    AllFound geo decls tqs evs oks' rest

/-- The events that a program has made, `none` if it has freed them, after one more call: `n` is the number of attributes. -/
def shelfAfter (n : Nat) (shelf : List (Option EventObj)) : EventOp → List (Option EventObj)
  | .make => shelf ++ [some (List.replicate n none)]
  | .set k i name m =>
    match m.value, shelf[k]? with
    | .ok v, some (some ev) => shelf.set k (some (ev.set i (some ⟨name, v⟩)))
    | _, _ => shelf
  | .free k => shelf.set k none
  | _ => shelf

/-- `k` is an event that the program has made and not freed, with the variables `ev` -/
def Holding (shelf : List (Option EventObj)) (k : Nat) (ev : List EventVar) : Prop := ∃ o, shelf[k]? = some (some o) ∧ held o = ev

/-- The call is in order: it does not change the tree, its texts say events, the events it uses were made and not freed, positions lie inside, the
events fit the declarations (`Good`); for the question whether anything matches they are also complete. -/
def InOrder (Good : List EventVar → Prop) (decls : List (Str × Decl × Bool)) (shelf : List (Option EventObj)) : EventOp → Prop
  | .user (.tree _) => False
  | .user (.search texts) => ∀ text ∈ texts, ∃ ev, SaysEvent text ev ∧ Good ev
  | .user (.exists text) => ∃ ev, SaysEvent text ev ∧ Good ev ∧ HasMandatory decls ev
  | .make => True
  | .set k i _ m => (∃ v, m.value = .ok v) ∧ (∃ ev, Holding shelf k ev) ∧ i < decls.length
  | .search ks => ∀ k ∈ ks, ∃ ev, Holding shelf k ev ∧ Good ev
  | .exists k => ∃ ev, Holding shelf k ev ∧ Good ev ∧ HasMandatory decls ev
  | .free k => ∃ ev, Holding shelf k ev
  | .loose _ m => ∃ v, m.value = .ok v

/-- all calls are -/
def AllInOrder (Good : List EventVar → Prop) (decls : List (Str × Decl × Bool)) : List (Option EventObj) → List EventOp → Prop
  | _, [] => True
  | shelf, o :: os => InOrder Good decls shelf o ∧ AllInOrder Good decls (shelfAfter decls.length shelf o) os

/-- the answer of a call is what it should be -/
def Right (geo : GeoTest) (decls : List (Str × Decl × Bool)) (tqs : List TextReq) (shelf : List (Option EventObj)) :
    EventOp → List Answer → Prop
  | .user (.search texts), as => ∃ evs rep oks, List.Forall₂ SaysEvent texts evs ∧ as = [.report rep oks] ∧ AllFound geo decls tqs evs oks rep.subs
  | .user (.exists text), as => ∃ ev b, SaysEvent text ev ∧ as = [.found b] ∧ (b = true ↔ ∃ q ∈ tqs, TrueOn geo q ev)
  | .search ks, as => ∃ evs rep oks, List.Forall₂ (Holding shelf) ks evs ∧ as = [.report rep oks] ∧ AllFound geo decls tqs evs oks rep.subs
  | .exists k, as => ∃ ev b, Holding shelf k ev ∧ as = [.found b] ∧ (b = true ↔ ∃ q ∈ tqs, TrueOn geo q ev)
  | _, as => as = []

/-- the answers of all calls are -/
def AllRight (geo : GeoTest) (decls : List (Str × Decl × Bool)) (tqs : List TextReq) :
    List (Option EventObj) → List EventOp → List Answer → Prop
  | _, [], as => as = []
  | shelf, o :: os, as => ∃ a b, as = a ++ b ∧ Right geo decls tqs shelf o a ∧ AllRight geo decls tqs (shelfAfter decls.length shelf o) os b

end BeTree.Spec
