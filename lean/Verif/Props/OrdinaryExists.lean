import Verif.Props.Trained
/-
C47 and C56 for `betree_exists`.
-/
namespace BeTree
open Spec

/-- C47 for `betree_exists`: declare attributes, insert any number of texts shorter than 1990 characters that say ordinary requests with distinct
ids, and ask with any text that says a well-typed event that sets the mandatory attributes: the call returns, and says yes exactly if some text that
was inserted says something true on the event. -/
theorem C47_ordinary_exists [Floats] (geo : GeoTest) (R : Rounding) (hR : Sane R) (cap min : Nat) (decls : List (Str × Decl × Bool))
    (tqs : List TextReq) (qs : List Req) (hs : List.Forall₂ ReqSays tqs qs) (hlen : ∀ q ∈ tqs, q.text.length < 1990)
    (hcap : cap % 256 ≠ 0) (hd : ∀ d ∈ decls, OrdinaryDecl d) (hnames : (decls.map (·.1)).Nodup)
    (hsize : decls.length + opsConstants (qs.map Op.insert) < 2 ^ 64 - 1)
    (hq : ∀ q ∈ qs, Ordinary decls (makeTree cap min decls).cfg.domains q) (he : Enough decls qs) (hids : (tqs.map TextReq.id).Nodup) :
    ∃ w, (TextWorld.init (makeTree cap min decls)).run R (tqs.map TextOp.insert) = .ok w ∧
      ∀ text ev, SaysEvent text ev → WellTyped (makeTree cap min decls).cfg.domains ev → EventInRange ev →
        (∀ q ∈ qs, Clear (makeTree cap min decls).cfg.domains ev q) → (∀ d ∈ decls, d.2.2 = false → sets ev d.1) →
          ∃ b, w.tree.existsText geo text = .ok b ∧
            (b = true ↔ ∃ q ∈ tqs, ∃ e, Says q.text e ∧ sat geo (constants q.consts) (eventOf ev) e) := by
  obtain ⟨w, h, _, hall⟩ := C47_ordinary_texts_correct geo R hR cap min decls tqs qs hs hlen hcap hd hnames hsize hq he hids
  refine ⟨w, h, fun text ev hev hwt hr hcl hm => ?_⟩
  obtain ⟨rep', ids, h1, h2, _, h4⟩ := (hall text ev hev hwt hr hcl .empty).2 hm
  rw [(C46_readable_event geo w.tree text ev hev .empty).1] at h1
  obtain ⟨b, k1, k2⟩ := C06_exists_iff_search geo w.tree ev rep' h1
  rw [(C46_readable_event geo w.tree text ev hev .empty).2]
  refine ⟨b, k1, k2.trans ?_⟩
  rw [show rep'.subs = ids from h2]
  constructor
  · intro hne
    obtain ⟨id, hid⟩ := List.exists_mem_of_ne_nil _ hne
    obtain ⟨q, hq, _, e⟩ := (h4 id).mp hid
    exact ⟨q, hq, e⟩
  · rintro ⟨q, hq, e⟩
    exact List.ne_nil_of_mem ((h4 q.id).mpr ⟨q, hq, rfl, e⟩)

/-- C56 for `betree_exists`: the same after all calls that change the tree. -/
theorem C56_taught_exists [Floats] (geo : GeoTest) (R : Rounding) (hR : Sane R) (cap min : Nat) (decls : List (Str × Decl × Bool))
    (tops : List TextOp) (ops : List Op) (hs : List.Forall₂ OpSays tops ops) (hlen : ∀ o ∈ tops, TextShorter 1990 o)
    (hcap : cap % 256 ≠ 0) (hd : ∀ d ∈ decls, OrdinaryDecl d) (hnames : (decls.map (·.1)).Nodup)
    (hsize : decls.length + opsConstants ops < 2 ^ 64 - 1)
    (ho : ∀ o ∈ ops, TrainedOp decls (makeTree cap min decls).cfg.domains o) (ht : TaughtFirst ops)
    (hids : ((placed ops).map Req.id).Nodup) :
    ∃ w, (TextWorld.init (makeTree cap min decls)).run R tops = .ok w ∧ List.Forall₂ ReqSays w.live (placed ops).reverse ∧
      ∀ text ev, SaysEvent text ev → WellTyped (makeTree cap min decls).cfg.domains ev → EventInRange ev →
        (∀ d ∈ decls, d.2.2 = false → sets ev d.1) →
          ∃ b, w.tree.existsText geo text = .ok b ∧
            (b = true ↔ ∃ q ∈ w.live, ∃ e, Says q.text e ∧ sat geo (constants q.consts) (eventOf ev) e) := by
  obtain ⟨w, h, hl, hall⟩ := C56_taught_texts_correct geo R hR cap min decls tops ops hs hlen hcap hd hnames hsize ho ht hids
  refine ⟨w, h, hl, fun text ev hev hwt hr hm => ?_⟩
  obtain ⟨rep', ids, h1, h2, _, h4⟩ := (hall text ev hev hwt hr .empty).2 hm
  rw [(C46_readable_event geo w.tree text ev hev .empty).1] at h1
  obtain ⟨b, k1, k2⟩ := C06_exists_iff_search geo w.tree ev rep' h1
  rw [(C46_readable_event geo w.tree text ev hev .empty).2]
  refine ⟨b, k1, k2.trans ?_⟩
  rw [show rep'.subs = ids from h2]
  constructor
  · intro hne
    obtain ⟨id, hid⟩ := List.exists_mem_of_ne_nil _ hne
    obtain ⟨q, hq, _, e⟩ := (h4 id).mp hid
    exact ⟨q, hq, e⟩
  · rintro ⟨q, hq, e⟩
    exact List.ne_nil_of_mem ((h4 q.id).mpr ⟨q, hq, rfl, e⟩)

/-! ### examples -/

/-- for the examples: the limits are binary fractions with few digits -/
local instance existsFloats : Floats := coarseFloats fun _ => True

theorem plainText_fits : WellTyped plainDomains plainTextVars ∧ EventInRange plainTextVars ∧ ∀ d ∈ plainDecls, d.2.2 = false → sets plainTextVars d.1 := by
  refine ⟨?_, ?_, ?_⟩
  · intro v hv
    simp only [plainTextVars, List.mem_cons, List.not_mem_nil, or_false] at hv
    rcases hv with rfl | rfl | rfl
    · exact ⟨.int, by decide +kernel, trivial⟩
    · exact ⟨.int, by decide +kernel, trivial⟩
    · exact ⟨.string, by decide +kernel, trivial⟩
  · intro v hv l hl
    simp only [plainTextVars, List.mem_cons, List.not_mem_nil, or_false] at hv
    rcases hv with rfl | rfl | rfl <;> cases hl
  · intro d hd hm
    simp only [plainDecls, List.mem_cons, List.not_mem_nil, or_false] at hd
    rcases hd with rfl | rfl | rfl | rfl | rfl | rfl | rfl | rfl | rfl | rfl | rfl <;> first | (cases hm; done) | (simp [sets, plainTextVars]; decide)

/-- all hypotheses are met -/
example : ∃ w b, (TextWorld.init (makeTree 1 0 plainDecls)).run exactRounding (plainTexts.map TextOp.insert) = .ok w ∧
    w.tree.existsText exGeo plainText = .ok b ∧
    (b = true ↔ ∃ q ∈ plainTexts, ∃ e, Says q.text e ∧ sat exGeo (constants q.consts) (eventOf plainTextVars) e) := by
  obtain ⟨w, h, hall⟩ := C47_ordinary_exists exGeo exactRounding exactRounding_sane 1 0 plainDecls plainTexts plainTextReqs
    plainTexts_say (by decide) (by decide) plainDecls_ordinary (by decide +kernel) (by decide +kernel) plainTextReqs_ordinary
    (enough_of_check (by decide +kernel)) (by decide)
  obtain ⟨h1, h2, h3⟩ := plainText_fits
  obtain ⟨b, k1, k2⟩ := hall plainText plainTextVars plainText_says h1 h2 (fun q _ => plain_clear h1 q) h3
  exact ⟨w, b, h, k1, k2⟩

example : ∃ w b, (TextWorld.init (makeTree 1 0 plainDecls)).run exactRounding taughtTexts = .ok w ∧ w.tree.existsText exGeo plainText = .ok b ∧
    (b = true ↔ ∃ q ∈ w.live, ∃ e, Says q.text e ∧ sat exGeo (constants q.consts) (eventOf plainTextVars) e) := by
  obtain ⟨w, h, _, hall⟩ := C56_taught_exists exGeo exactRounding exactRounding_sane 1 0 plainDecls taughtTexts taughtTextOps
    taughtTexts_say taughtTexts_short (by decide) plainDecls_ordinary (by decide +kernel) (by decide +kernel) taughtTextOps_trained
    (taught_of_check (by decide +kernel)) (by decide)
  obtain ⟨h1, h2, h3⟩ := plainText_fits
  obtain ⟨b, k1, k2⟩ := hall plainText plainTextVars plainText_says h1 h2 h3
  exact ⟨w, b, h, k1, k2⟩

end BeTree
