import Verif.Lemmas.TextRun
import Verif.Props.Search
/-
C46: from the texts of the calls to the report.

The full property: after any calls with expressions given as texts, a search with an event given as a text reports exactly the ids of the
accepted insertions whose text is true on the event; a text that cannot be read is refused and changes nothing.  It is false of the code
where C01, C44 and C45 are, and because an event text that cannot be read aborts the process (`C46_unreadable_event_aborts`).
-/
namespace BeTree
open Spec

/-- What is asked of a history of calls with texts, as `Orderly` with what the texts say. -/
structure TextOrderly [Floats] (decls : List (Str × Decl × Bool)) (tops : List TextOp) (w : TextWorld) : Prop where
  proper : ∀ d ∈ decls, ProperDecl d.1 d.2.1
  ops : ∀ op ∈ tops, ∀ o, OpSays op o → ModerateOp o ∧ NamedOp decls w.tree.cfg o
  small : Small w.tree.cfg
  ids : (w.live.map TextReq.id).Nodup

/-- C46 (partial).  After any history of calls with texts that accepted distinct ids, a search with an event text that answers has read an
event from it, and adds to the report exactly the ids of the accepted insertions whose text says something true on that event, each of
them once.  Partial: as C01, by the conditions on what the texts say. -/
theorem C46_text_search_exact_partial [Floats] (geo : GeoTest) (R : Rounding) (cap min : Nat) (decls : List (Str × Decl × Bool))
    (tops : List TextOp) (w : TextWorld) (h : (TextWorld.init (makeTree cap min decls)).run R tops = .ok w)
    (ho : TextOrderly decls tops w) (text : Str)
    (hpr : ∀ ev, SaysEvent text ev → EventInRange ev ∧ ∀ q ∈ w.live, ∀ q', ReqSays q q' → Prunable decls w.tree.cfg ev q')
    (rep rep' : Report) (hs : w.tree.searchText geo text rep = .ok (some rep')) :
    ∃ ev, SaysEvent text ev ∧ ∃ ids, rep'.subs = rep.subs ++ ids ∧ ids.Nodup ∧
      ∀ id, id ∈ ids ↔ ∃ q ∈ w.live, q.id = id ∧ ∃ e, Says q.text e ∧ sat geo (constants q.consts) (eventOf ev) e := by
  obtain ⟨ops, w', hr, hsame, hall⟩ := run_same (init_same _) h
  rcases eventFromString_says text with ⟨_, he⟩ | ⟨ev, hev, he⟩
  · simp only [Tree.searchText, he] at hs
    cases hs
  · simp only [Tree.searchText, he, hsame.tree] at hs
    obtain ⟨hin, hp⟩ := hpr ev hev
    have ho' : Orderly decls ops w' := by
      refine ⟨ho.proper, fun o hm => ?_, by rw [← hsame.tree]; exact ho.small, by rw [← same_ids hsame.live]; exact ho.ids⟩
      obtain ⟨op, hop, hsay⟩ := hall o hm
      rw [← hsame.tree]
      exact ho.ops op hop o hsay
    have hp' : ∀ q ∈ w'.live, Prunable decls w'.tree.cfg ev q := by
      intro q hq
      obtain ⟨q0, hq0, hsay⟩ := forall₂_mem_right hsame.live hq
      rw [← hsame.tree]
      exact hp q0 hq0 q hsay
    obtain ⟨ids, h1, h2, h3⟩ := C01_search_exact_partial geo R cap min decls ops w' hr ho' ev hin hp' rep rep' hs
    refine ⟨ev, hev, ids, h1, h2, fun id => ?_⟩
    rw [h3]
    constructor
    · rintro ⟨q, hq, rfl, hsat⟩
      obtain ⟨q0, hq0, hsay⟩ := forall₂_mem_right hsame.live hq
      exact ⟨q0, hq0, hsay.id, q.expr, hsay.expr, by rw [hsay.consts]; exact hsat⟩
    · rintro ⟨q0, hq0, rfl, e, he, hsat⟩
      obtain ⟨q, hq, hsay⟩ := forall₂_mem_left hsame.live hq0
      refine ⟨q, hq, hsay.id.symm, ?_⟩
      rw [says_unique hsay.expr he, ← hsay.consts]
      exact hsat

/-- C46: a text says at most one expression, and at most one event. -/
theorem C46_one_meaning (text : Str) : (∀ e e', Says text e → Says text e' → e = e') ∧
    ∀ ev ev', SaysEvent text ev → SaysEvent text ev' → ev = ev' :=
  ⟨fun _ _ => says_unique, fun _ _ => saysEvent_unique⟩

/-- C46: a text that says nothing is refused by all calls, and the tree stays as it was. -/
theorem C46_unreadable_refused (R : Rounding) (t : Tree) (id : Nat) (cs : List Constant) (text : Str) (h : ∀ e, ¬ Says text e) :
    t.insertText R id cs text = .ok (false, t) ∧ t.makeSubText id cs text = .ok (none, t) ∧
      t.changeBoundariesText text = .ok (false, t) := by
  have hp := parseText_silent h
  refine ⟨?_, ?_, ?_⟩
  · rw [Tree.insertText, hp]
  · rw [Tree.makeSubText, hp]
  · rw [Tree.changeBoundariesText, hp]

theorem changeBoundariesText_says {t : Tree} {text : Str} {e : Expr} (hp : parseText text = .ok (some e)) :
    t.changeBoundariesText text = (t.changeBoundaries e).map fun t' => (true, t') := by
  rw [Tree.changeBoundariesText, hp]
  dsimp only
  cases t.changeBoundaries e <;> rfl

/-- C46 (partial): a text that says something is inserted as what it says; `betree_change_boundaries` with it gives `true`.  Missing: texts nested 1990 deep or more may be refused. -/
theorem C46_readable_inserted_partial (R : Rounding) (t : Tree) (id : Nat) (cs : List Constant) (text : Str) (ts : List Tok) (r : Str)
    (d : Nat) (e : Expr) (hs : Scan text ts r) (hr : Reads .or d ts e) (hd : d < 1990) :
    t.insertText R id cs text = t.insert R id cs (parseBuild e) ∧ t.makeSubText id cs text = t.makeSub id cs (parseBuild e) ∧
      t.changeBoundariesText text = (t.changeBoundaries (parseBuild e)).map fun t' => (true, t') := by
  have hp : parseText text = .ok (some (parseBuild e)) := by rw [parseText, lexExpr_eq hs]; exact xx_accepts hr hd
  exact ⟨by rw [Tree.insertText, hp], by rw [Tree.makeSubText, hp], changeBoundariesText_says hp⟩

/-- C44, partial: every text shorter than 1990 characters that is an expression is accepted and means it.  Missing: longer texts, where the
nesting counts (`C44_scanned_partial`). -/
theorem C44_short_partial (text : Str) (ts : List Tok) (d : Nat) (e : Expr) (hs : Scan text ts []) (hr : Reads .or d ts e)
    (hl : text.length < 1990) : parseText text = .ok (some (parseBuild e)) :=
  parseText_short hl ⟨ts, [], d, hs, hr⟩

/-- C46 (partial): every text shorter than 1990 characters that says something is inserted as what it says. -/
theorem C46_short_inserted_partial (R : Rounding) (t : Tree) (id : Nat) (cs : List Constant) (text : Str) (e : Expr) (h : Says text e)
    (hl : text.length < 1990) :
    t.insertText R id cs text = t.insert R id cs (parseBuild e) ∧ t.makeSubText id cs text = t.makeSub id cs (parseBuild e) ∧
      t.changeBoundariesText text = (t.changeBoundaries (parseBuild e)).map fun t' => (true, t') := by
  have hp := parseText_short hl h
  exact ⟨by rw [Tree.insertText, hp], by rw [Tree.makeSubText, hp], changeBoundariesText_says hp⟩

/-- C46: an event text is searched as the event it says. -/
theorem C46_readable_event (geo : GeoTest) (t : Tree) (text : Str) (ev : List EventVar) (h : SaysEvent text ev) (rep : Report) :
    t.searchText geo text rep = t.search geo ev rep ∧ t.existsText geo text = t.exists geo ev := by
  rcases eventFromString_says text with ⟨hn, _⟩ | ⟨ev', hev, he⟩
  · exact absurd h (hn ev)
  · obtain rfl := saysEvent_unique h hev
    exact ⟨by rw [Tree.searchText, he], by rw [Tree.existsText, he]⟩

/-- the code departs from the property: a text that says no event is not refused, it ends the process -/
theorem C46_unreadable_event_aborts (geo : GeoTest) (t : Tree) (text : Str) (h : ∀ ev, ¬ SaysEvent text ev) (rep : Report) :
    t.searchText geo text rep = .error .abort ∧ t.existsText geo text = .error .abort := by
  rcases eventFromString_says text with ⟨_, he⟩ | ⟨ev, hev, _⟩
  · exact ⟨by rw [Tree.searchText, he], by rw [Tree.existsText, he]⟩
  · exact absurd hev (h ev)

/-! ### a concrete case -/

def textReq (id : Nat) (s : String) : TextReq := ⟨id, [], s.toList⟩

/-- seven calls; the fourth is refused -/
def textOps : List TextOp :=
  [.insert (textReq 1 "i < 3"), .insert (textReq 2 "not (i > 9)"), .insert (textReq 3 "s = 'a'"), .insert (textReq 4 "i < "),
   .changeBoundaries "i < 40".toList, .makeSub (textReq 6 "i >= 5"), .insertSub 0]

def textWorld : TextWorld :=
  match (TextWorld.init (makeTree 2 0 searchDecls)).run exactRounding textOps with
  | .ok w => w
  | .error _ => TextWorld.init (makeTree 2 0 searchDecls)

def textEvent : Str := "{\"i\": 7, 's': \"a\", \"b\": null}".toList

theorem textWorld_run : (TextWorld.init (makeTree 2 0 searchDecls)).run exactRounding textOps = .ok textWorld := by
  have h : ((TextWorld.init (makeTree 2 0 searchDecls)).run exactRounding textOps).isOk := by decide +kernel
  unfold textWorld
  split
  · assumption
  · rename_i e he; rw [he] at h; cases h

/-- the event of the text; `b` is absent -/
def textEventVars : List EventVar := [⟨"i".toList, .int 7⟩, ⟨"s".toList, .string (quoted "a".toList)⟩]

theorem textEvent_parsed : parseEventText textEvent = .ok (some textEventVars) := by decide +kernel

theorem textEvent_search : (textWorld.tree.search exGeo textEventVars .empty).toOption.map (·.map (fun r => r.subs)) = some (some [3, 2, 6]) := by
  decide +kernel

theorem textEvent_searchText :
    (textWorld.tree.searchText exGeo textEvent .empty).toOption.map (·.map (fun r => r.subs)) = some (some [3, 2, 6]) := by
  rw [Tree.searchText, eventFromString, textEvent_parsed]
  exact textEvent_search

/-- `i op k` and `s = "v"` as the parser builds them -/
def tI (op : CmpOp) (k : Int) : Expr := .leaf (.compare op (named ['i']) (.int k))
def tS (v : String) : Expr := .leaf (.equality .eq (named ['s']) (.string (quoted v.toList)))

theorem text_one_parsed : parseText "i < 3".toList = .ok (some (tI .lt 3)) := by decide +kernel
theorem text_two_parsed : parseText "not (i > 9)".toList = .ok (some (.not (tI .gt 9))) := by decide +kernel
theorem text_three_parsed : parseText "s = 'a'".toList = .ok (some (tS "a")) := by decide +kernel
theorem text_four_parsed : parseText "i < ".toList = .ok none := by decide +kernel
theorem text_five_parsed : parseText "i < 40".toList = .ok (some (tI .lt 40)) := by decide +kernel

theorem text_six_parsed : parseText "i >= 5".toList = .ok (some (tI .ge 5)) := by decide +kernel

theorem text_one {e : Expr} (h : Says "i < 3".toList e) : e = tI .lt 3 := says_leaf text_one_parsed h
theorem text_two {e : Expr} (h : Says "not (i > 9)".toList e) : e = .not (tI .gt 9) := says_not_leaf text_two_parsed h
theorem text_three {e : Expr} (h : Says "s = 'a'".toList e) : e = tS "a" := says_leaf text_three_parsed h
theorem text_four (e : Expr) : ¬ Says "i < ".toList e := not_says (by decide) text_four_parsed e
theorem text_five {e : Expr} (h : Says "i < 40".toList e) : e = tI .lt 40 := says_leaf text_five_parsed h
theorem text_six {e : Expr} (h : Says "i >= 5".toList e) : e = tI .ge 5 := says_leaf text_six_parsed h

/-- the texts do say something -/
example : Says "not (i > 9)".toList (.not (tI .gt 9)) := by
  obtain ⟨e, he, hb⟩ := parseText_reads text_two_parsed
  rw [← text_two he]; exact he

theorem req_says {q : TextReq} {q' : Req} {x : Expr} (hx : ∀ {e}, Says q.text e → e = x) (h : ReqSays q q') : q' = ⟨q.id, q.consts, x⟩ := by
  cases q'
  obtain ⟨h1, h2, h3⟩ := h
  simp only at h1 h2 h3
  rw [h1, h2, hx h3]

/-- for the examples: the limits are binary fractions with few digits -/
local instance endToEndFloats : Floats := coarseFloats fun _ => True

example : TextOrderly searchDecls textOps textWorld := by
  refine ⟨?_, ?_, ?_, by decide +kernel⟩
  · intro d hd
    simp only [searchDecls, List.mem_cons, List.not_mem_nil, or_false] at hd
    rcases hd with rfl | rfl | rfl | rfl | rfl <;> first
      | exact proper_float trivial (by decide +kernel) (.inr (by decide +kernel)) (.inr (by decide +kernel))
      | simp [ProperDecl, sizeMax]
  · have hdom : textWorld.tree.cfg.domains.map (fun d => (d.attr.attr, d.bound)) =
        [("i".toList, { ty := .int, lo := .i 0, hi := .i 39 }), ("b".toList, { ty := .bool, lo := .b false, hi := .b true }),
         ("s".toList, { ty := .string, lo := .s 0, hi := .s (sizeMax - 1) }),
         ("f".toList, { ty := .float, lo := .f 0, hi := .f 8 }), ("il".toList, { ty := .intList, lo := .i 0, hi := .i 20 })] := by
      decide +kernel
    have huns : ∀ d ∈ textWorld.tree.cfg.domains, d.attr.attr = lowerKey "s".toList → Unlimited d.bound := by
      intro d hd hn
      have hm : (d.attr.attr, d.bound) ∈ textWorld.tree.cfg.domains.map (fun d => (d.attr.attr, d.bound)) :=
        List.mem_map_of_mem (f := fun d : Domain => (d.attr.attr, d.bound)) hd
      rw [hdom, hn] at hm
      simp only [List.mem_cons, Prod.mk.injEq, List.not_mem_nil, or_false] at hm
      rcases hm with ⟨h, _⟩ | ⟨h, _⟩ | ⟨_, h⟩ | ⟨h, _⟩ | ⟨h, _⟩
      · exact absurd h (by decide)
      · exact absurd h (by decide)
      · rw [h]; exact ⟨Or.inl rfl, rfl⟩
      · exact absurd h (by decide)
      · exact absurd h (by decide)
    intro op hop o ho
    simp only [textOps, List.mem_cons, List.not_mem_nil, or_false] at hop
    have key : o ∈ [Op.insert ⟨1, [], tI .lt 3⟩, .insert ⟨2, [], .not (tI .gt 9)⟩, .insert ⟨3, [], tS "a"⟩,
        .changeBoundaries (tI .lt 40), .makeSub ⟨6, [], tI .ge 5⟩, .insertSub 0] := by
      rcases hop with rfl | rfl | rfl | rfl | rfl | rfl | rfl
      · cases ho with | insert hq => rw [req_says text_one hq]; simp [textReq]
      · cases ho with | insert hq => rw [req_says text_two hq]; simp [textReq]
      · cases ho with | insert hq => rw [req_says text_three hq]; simp [textReq]
      · cases ho with | insert hq => exact absurd hq.expr (text_four _)
      · cases ho with | changeBoundaries he => rw [text_five he]; simp
      · cases ho with | makeSub hq => rw [req_says text_six hq]; simp [textReq]
      · cases ho with | insertSub k => simp
    simp only [List.mem_cons, List.not_mem_nil, or_false] at key
    rcases key with rfl | rfl | rfl | rfl | rfl | rfl <;>
      simp [ModerateOp, MayWiden, NamedOp, Roomy, Moderate, tI, tS, named, quoted, strConsts, enumConsts, predStrConsts, predEnumConsts, ModInt,
        int64Min, int64Max, Expr.InRange, Pred.InRange] <;>
      first
        | exact .inl huns
        | exact fit_of_check (by decide +kernel)
  · refine small_of_lengths (by decide +kernel) ?_ ?_ <;> decide +kernel

theorem textEvent_says {ev : List EventVar} (h : SaysEvent textEvent ev) : ev = textEventVars := by
  rcases eventFromString_says textEvent with ⟨hn, _⟩ | ⟨ev', hev, he⟩
  · exact absurd h (hn ev)
  · rw [eventFromString, textEvent_parsed] at he
    cases he
    exact saysEvent_unique h hev

example : ∀ ev, SaysEvent textEvent ev →
    EventInRange ev ∧ ∀ q ∈ textWorld.live, ∀ q', ReqSays q q' → Prunable searchDecls textWorld.tree.cfg ev q' := by
  intro ev hev
  rw [textEvent_says hev]
  have hlive : textWorld.live = [textReq 6 "i >= 5", textReq 3 "s = 'a'", textReq 2 "not (i > 9)", textReq 1 "i < 3"] := by decide +kernel
  have hf : ∀ x, (eventOf textEventVars).get (named ['i']) ≠ some (.float x) := by
    intro x hx
    have h3 : some (Value.int 7) = some (Value.float x) := hx
    simp at h3
  refine ⟨?_, ?_⟩
  · intro v hv l hl
    simp only [textEventVars, List.mem_cons, List.not_mem_nil, or_false] at hv
    rcases hv with rfl | rfl <;> cases hl
  · rw [hlive]
    intro q hq q' hs
    simp only [List.mem_cons, List.not_mem_nil, or_false] at hq
    have key : q' ∈ [(⟨6, [], tI .ge 5⟩ : Req), ⟨3, [], tS "a"⟩, ⟨2, [], .not (tI .gt 9)⟩, ⟨1, [], tI .lt 3⟩] := by
      rcases hq with rfl | rfl | rfl | rfl
      · rw [req_says text_six hs]; simp [textReq]
      · rw [req_says text_three hs]; simp [textReq]
      · rw [req_says text_two hs]; simp [textReq]
      · rw [req_says text_one hs]; simp [textReq]
    simp only [List.mem_cons, List.not_mem_nil, or_false] at key
    rcases key with rfl | rfl | rfl | rfl <;>
      refine ⟨⟨?_, by simp [ConstantsInRange], ?_, ?_⟩, ?_, ?_⟩ <;>
      simp [tI, tS, named, Expr.InRange, Pred.InRange, Clocked, ShortSafe, BoundSafe, Separated] <;>
      exact fun _ x hx => absurd hx (hf x)

/-- texts the calls refuse, and one that ends the process -/
example : ∀ e, ¬ Says "i < ".toList e := text_four

example : ∀ ev, ¬ SaysEvent "{\"b\": [1.5]}".toList ev := by
  have h : parseEventText "{\"b\": [1.5]}".toList = .ok none := by decide +kernel
  rcases eventFromString_says "{\"b\": [1.5]}".toList with ⟨hn, _⟩ | ⟨ev, _, he⟩
  · exact hn
  · rw [eventFromString, h] at he
    cases he

end BeTree
