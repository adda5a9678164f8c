import Verif.Spec.Ordinary
import Verif.Props.InsertTotal
import Verif.Props.TypedSearch
import Verif.Props.StrBound
import Verif.Props.Search
import Verif.Props.Event
import Verif.Props.EndToEnd
import Verif.Lemmas.Used
/-
C47: ordinary use is totally correct.  The conditions speak of the declarations, the requests and the event alone; nothing is assumed
about the outcome of any call.
-/
namespace BeTree
open Spec

theorem run_append {R : Rounding} {ops ops' : List Op} : ∀ {w w' : World}, w.run R (ops ++ ops') = .ok w' →
    ∃ w1, w.run R ops = .ok w1 ∧ w1.run R ops' = .ok w' := by
  induction ops with
  | nil => intro w w' h; exact ⟨w, rfl, h⟩
  | cons o os ih =>
    intro w w' h
    simp only [List.cons_append, World.run] at h
    split at h
    · cases h
    · rename_i w0 h0
      obtain ⟨w1, h1, h2⟩ := ih h
      exact ⟨w1, by simp only [World.run, h0, h1], h2⟩

@[elab_as_elim]
theorem snoc_induction {α : Type} {P : List α → Prop} (nil : P []) (snoc : ∀ l a, P l → P (l ++ [a])) (l : List α) : P l := by
  have h : ∀ r : List α, P r.reverse := by
    intro r
    induction r with
    | nil => exact nil
    | cons a r ih => rw [List.reverse_cons]; exact snoc _ _ ih
  have := h l.reverse
  rwa [List.reverse_reverse] at this

theorem opsConstants_append (a b : List Op) : opsConstants (a ++ b) = opsConstants a + opsConstants b := by
  induction a with
  | nil => simp [opsConstants]
  | cons o os ih => simp only [List.cons_append, opsConstants, ih]; omega

theorem accepts_declared {ds : List Domain} {e : Expr} (h : Accepts ds e) : DeclaredIn ds e := by
  have hk : ∀ {v tys}, Is ds v tys → Known ds v := fun ⟨t, _, h⟩ => ⟨t, h⟩
  have hn : ∀ {v}, Nullable ds v → Known ds v := fun ⟨d, h, _⟩ => ⟨d.bound.ty, by simp only [declaredType, h, Option.map_some]⟩
  induction e with
  | leaf p =>
    intro v hv
    cases p with
    | compare op w c => cases c <;> simp only [lookedAt, List.mem_singleton] at hv <;> subst hv <;> exact hk h
    | equality op w c => cases c <;> simp only [lookedAt, List.mem_singleton] at hv <;> subst hv <;> exact hk h
    | boolVar w => simp only [lookedAt, List.mem_singleton] at hv; subst hv; exact hk h
    | boolLit b => cases hv
    | set op l r =>
      cases l <;> cases r <;> simp only [lookedAt, List.mem_singleton, List.not_mem_nil] at hv <;>
        first | exact hv.elim | (subst hv; first | exact hk h | exact h.elim)
    | list op w c => cases c <;> simp only [lookedAt, List.mem_singleton] at hv <;> subst hv <;> exact hk h
    | freq f =>
      simp only [lookedAt, List.mem_cons, List.not_mem_nil, or_false] at hv
      rcases hv with rfl | rfl
      · exact h.1
      · exact h.2.1
    | segment s =>
      simp only [lookedAt, List.mem_cons, List.not_mem_nil, or_false] at hv
      rcases hv with rfl | rfl
      · exact h.1
      · exact h.2
    | geo g => cases hv
    | str s => simp only [lookedAt, List.mem_singleton] at hv; subst hv; exact h
    | isNull op w => cases op <;> simp only [lookedAt, List.mem_singleton] at hv <;> subst hv <;> first | exact hk h | exact hn h
  | not e ih => exact ih h
  | and l r ihl ihr | or l r ihl ihr => exact ⟨ihl h.1, ihr h.2⟩

/-! ### the limits on the number of values -/

theorem mem_nodup_eq {α β : Type} {f : α → β} {l : List α} (h : (l.map f).Nodup) {x y : α} (hx : x ∈ l) (hy : y ∈ l) (he : f x = f y) :
    x = y := by
  induction l with
  | nil => cases hx
  | cons a l ih =>
    rw [List.map_cons, List.nodup_cons] at h
    rcases List.mem_cons.1 hx with e1 | h1 <;> rcases List.mem_cons.1 hy with e2 | h2
    · rw [e1, e2]
    · exact absurd (by rw [← e1, he]; exact List.mem_map_of_mem h2) h.1
    · exact absurd (by rw [← e2, ← he]; exact List.mem_map_of_mem h1) h.1
    · exact ih h.2 h1 h2

section
variable {cap min : Nat} {decls : List (Str × Decl × Bool)}

/-- the domain of a name is that of its declaration -/
theorem named_decl (hnames : (decls.map (·.1)).Nodup) {d : Domain} {a : Str} (hd : d ∈ (makeTree cap min decls).cfg.domains)
    (hn : d.attr.attr = lowerKey a) :
    ∃ x ∈ decls, decls.find? (fun x => x.1 = a.map Char.toLower) = some x ∧ d.bound = x.2.1.bound := by
  rw [makeTree_domains] at hd
  obtain ⟨i, hi, rfl⟩ := List.mem_mapIdx.1 hd
  have hx : decls[i].1 = a.map Char.toLower := hn
  cases hf : decls.find? (fun x => x.1 = a.map Char.toLower) with
  | none => rw [List.find?_eq_none] at hf; exact absurd (by simpa using hx) (hf _ (List.getElem_mem hi))
  | some x =>
    have h1 := List.mem_of_find?_eq_some hf
    have h2 : x.1 = a.map Char.toLower := by simpa using List.find?_some hf
    have := mem_nodup_eq hnames h1 (List.getElem_mem hi) (h2.trans hx.symm)
    exact ⟨x, h1, rfl, by rw [this]; rfl⟩

/-- it has the declared limit -/
theorem named_limit [Floats] (hd : ∀ d ∈ decls, OrdinaryDecl d) (hnames : (decls.map (·.1)).Nodup) {d : Domain} {a : Str}
    (hm : d ∈ (makeTree cap min decls).cfg.domains) (hn : d.attr.attr = lowerKey a)
    (ht : d.bound.ty ∈ [VType.string, .strList, .intEnum, .freq]) :
    ∃ n, limitOf decls a = some n ∧ 0 < n ∧ d.bound.hi = .s (n - 1) ∧ (n < sizeMax ∨ n = sizeMax ∧ Unlimited d.bound) := by
  obtain ⟨x, h1, h2, h3⟩ := named_decl hnames hm hn
  have h4 := (hd x h1).positive
  obtain ⟨nm, dc, al⟩ := x
  dsimp only at h3 h4
  unfold limitOf
  rw [h2]
  rw [h3] at ht ⊢
  have key : ∀ n : Nat, 0 < n → n < 2 ^ 64 → (n + sizeMax) % 2 ^ 64 = n - 1 := fun n h h' => by unfold sizeMax; omega
  have hsz : sizeMax = 2 ^ 64 - 1 := rfl
  cases dc <;> simp only [Decl.bound, List.mem_cons, reduceCtorEq, List.not_mem_nil, or_self, or_false, false_or] at ht
  all_goals first
    | (rename_i n
       have hk := key n h4.1 h4.2
       refine ⟨n, rfl, h4.1, by simp only [Decl.bound, hk], ?_⟩
       by_cases hl : n < sizeMax
       · exact .inl hl
       · have hlt := h4.2
         have he : n = sizeMax := by omega
         exact .inr ⟨he, by simp [Decl.bound], by simp only [Decl.bound, hk]; rw [he]⟩)
    | exact ⟨1, rfl, by omega, rfl, .inl (by rw [hsz]; omega)⟩

theorem declared_named {a : Str} {t : VType} (h : declaredType (makeTree cap min decls).cfg.domains a = some t) :
    ∃ d ∈ (makeTree cap min decls).cfg.domains, d.attr.attr = lowerKey a ∧ d.bound.ty = t := by
  simp only [declaredType, Option.map_eq_some_iff] at h
  obtain ⟨d, hd, rfl⟩ := h
  exact ⟨d, List.mem_of_find?_eq_some hd, by simpa [lowerKey] using List.find?_some hd, rfl⟩

theorem str_typed {ds : List Domain} {e : Expr} (ha : Accepts ds e) (hs : SpecialTyped ds e) :
    ∀ c ∈ strConsts e, ∃ t, declaredType ds c.1 = some t ∧ t ∈ [VType.string, .strList, .intEnum, .freq] := by
  have key : ∀ {v : AttrVar} {t : VType}, t ∈ [VType.string, .strList, .intEnum, .freq] → Is ds v [t] →
      ∃ t, declaredType ds v.attr = some t ∧ t ∈ [VType.string, .strList, .intEnum, .freq] := by
    intro v t ht ⟨t', h1, h2⟩
    rw [List.mem_singleton] at h1
    subst h1
    exact ⟨_, h2, ht⟩
  induction e with
  | leaf p =>
    intro c hc
    cases p with
    | equality op v k =>
      cases k <;> simp only [strConsts, predStrConsts, List.mem_singleton, List.not_mem_nil] at hc
      subst hc
      exact key (by simp) ha
    | set op l r =>
      cases l <;> cases r <;> simp only [strConsts, predStrConsts, List.mem_singleton, List.not_mem_nil, List.mem_map] at hc
      · subst hc; exact key (by simp) ha
      · obtain ⟨s, _, rfl⟩ := hc; exact key (by simp) ha
    | list op v k =>
      cases k <;> simp only [strConsts, predStrConsts, List.not_mem_nil, List.mem_map] at hc
      obtain ⟨s, _, rfl⟩ := hc; exact key (by simp) ha
    | freq f =>
      simp only [strConsts, predStrConsts, List.mem_singleton] at hc
      subst hc
      exact key (by simp) hs.1
    | _ => cases hc
  | not e ih => exact ih ha hs
  | and l r ihl ihr | or l r ihl ihr =>
    intro c hc
    rcases List.mem_append.1 hc with hc | hc
    · exact ihl ha.1 hs.1 c hc
    · exact ihr ha.2 hs.2 c hc

theorem texts_consts {e : Expr} {p : Pred} (hp : p ∈ preds e) {a : Str} {ts : List Str} (ht : predTexts p = some (a, ts)) :
    ∀ t ∈ ts, (a, t) ∈ strConsts e := by
  induction e with
  | leaf q =>
    simp only [preds, List.mem_singleton] at hp
    subst hp
    intro t hm
    cases p with
    | equality op v c =>
      cases c <;> simp only [predTexts, Option.some.injEq, Prod.mk.injEq, reduceCtorEq] at ht
      obtain ⟨rfl, rfl⟩ := ht
      simpa [strConsts, predStrConsts] using hm
    | set op l r =>
      cases l <;> cases r <;> simp only [predTexts, Option.some.injEq, Prod.mk.injEq, reduceCtorEq] at ht
      all_goals
        obtain ⟨rfl, rfl⟩ := ht
        simpa [strConsts, predStrConsts] using hm
    | list op v c =>
      cases c <;> simp only [predTexts, Option.some.injEq, Prod.mk.injEq, reduceCtorEq] at ht
      obtain ⟨rfl, rfl⟩ := ht
      simpa [strConsts, predStrConsts] using hm
    | _ => cases ht
  | not e ih => exact ih hp
  | and l r ihl ihr | or l r ihl ihr =>
    intro t hm
    rcases List.mem_append.1 hp with hp | hp
    · exact List.mem_append_left _ (ihl hp t hm)
    · exact List.mem_append_right _ (ihr hp t hm)

theorem texts_typed {ds : List Domain} {e : Expr} (hacc : Accepts ds e) {p : Pred} (hp : p ∈ preds e) {a : Str} {ts : List Str}
    (ht : predTexts p = some (a, ts)) : ∃ t, declaredType ds a = some t ∧ t ∈ [VType.string, .strList, .intEnum, .freq] := by
  have key : ∀ {v : AttrVar} {t : VType}, t ∈ [VType.string, .strList, .intEnum, .freq] → Is ds v [t] →
      ∃ t, declaredType ds v.attr = some t ∧ t ∈ [VType.string, .strList, .intEnum, .freq] := by
    intro v t ht ⟨t', h1, h2⟩
    rw [List.mem_singleton] at h1
    subst h1
    exact ⟨_, h2, ht⟩
  induction e with
  | leaf q =>
    simp only [preds, List.mem_singleton] at hp
    subst hp
    cases p with
    | equality op v c =>
      cases c <;> simp only [predTexts, Option.some.injEq, Prod.mk.injEq, reduceCtorEq] at ht
      obtain ⟨rfl, rfl⟩ := ht
      exact key (by simp) hacc
    | set op l r =>
      cases l <;> cases r <;> simp only [predTexts, Option.some.injEq, Prod.mk.injEq, reduceCtorEq] at ht
      all_goals
        obtain ⟨rfl, rfl⟩ := ht
        exact key (by simp) hacc
    | list op v c =>
      cases c <;> simp only [predTexts, Option.some.injEq, Prod.mk.injEq, reduceCtorEq] at ht
      obtain ⟨rfl, rfl⟩ := ht
      exact key (by simp) hacc
    | _ => cases ht
  | not e ih => exact ih hacc hp
  | and l r ihl ihr | or l r ihl ihr =>
    rcases List.mem_append.1 hp with hp | hp
    · exact ihl hacc.1 hp
    · exact ihr hacc.2 hp

theorem texts_length {e : Expr} {p : Pred} (hp : p ∈ preds e) {a : Str} {ts : List Str} (ht : predTexts p = some (a, ts)) :
    ts.length ≤ numConstants e := by
  induction e with
  | leaf q =>
    simp only [preds, List.mem_singleton] at hp
    subst hp
    cases p with
    | equality op v c =>
      cases c <;> simp only [predTexts, Option.some.injEq, Prod.mk.injEq, reduceCtorEq] at ht
      obtain ⟨rfl, rfl⟩ := ht
      simp [numConstants, predConstants]
    | set op l r =>
      cases l <;> cases r <;> simp only [predTexts, Option.some.injEq, Prod.mk.injEq, reduceCtorEq] at ht
      all_goals
        obtain ⟨rfl, rfl⟩ := ht
        simp [numConstants, predConstants]
    | list op v c =>
      cases c <;> simp only [predTexts, Option.some.injEq, Prod.mk.injEq, reduceCtorEq] at ht
      obtain ⟨rfl, rfl⟩ := ht
      simp [numConstants, predConstants]
    | _ => cases ht
  | not e ih => exact ih hp
  | and l r ihl ihr | or l r ihl ihr =>
    simp only [numConstants]
    rcases List.mem_append.1 hp with hp | hp
    · have := ihl hp; omega
    · have := ihr hp; omega

variable {qs : List Req}

theorem enough_mono {qs' : List Req} (h : Enough decls (qs ++ qs')) : Enough decls qs where
  strs a n h1 h2 l h3 h4 := h.strs a n h1 h2 l h3 fun x hx => (h4 x hx).imp fun _ h => ⟨List.mem_append_left _ h.1, h.2⟩
  ints a n h1 h2 l h3 h4 := h.ints a n h1 h2 l h3 fun x hx => (h4 x hx).imp fun _ h => ⟨List.mem_append_left _ h.1, h.2⟩
  once q hq := h.once q (List.mem_append_left _ hq)

/-- the known values of an attribute are those of the requests -/
theorem known_used {cfg : Config} (hlen : cfg.domains.length < invalidId) (hf : FromConsts cfg (qs.map Req.expr)) (a : Str) :
    (∀ x ∈ knownStrs cfg a, ∃ q ∈ qs, ∃ c ∈ strConsts q.expr, c.1.map Char.toLower = a.map Char.toLower ∧ c.2 = x) ∧
    (∀ x ∈ knownInts cfg a, ∃ q ∈ qs, ∃ c ∈ enumConsts q.expr, c.1.map Char.toLower = a.map Char.toLower ∧ c.2 = x) := by
  by_cases hne : tryGetIdForAttr cfg a = invalidId
  · have : cfg.domains.findIdx? (fun d => decide (d.attr.attr = a.map Char.toLower)) = none := by
      have hid : tryGetIdForAttr cfg a = match cfg.domains.findIdx? (fun d => d.attr.attr = a.map Char.toLower) with
        | none => invalidId | some j => 0 + j := findAttr_idx _ _ 0
      cases hj : cfg.domains.findIdx? (fun d => decide (d.attr.attr = a.map Char.toLower)) with
      | none => rfl
      | some j =>
        rw [hj] at hid
        have := (List.findIdx?_eq_some_iff_findIdx_eq.1 hj).1
        simp only [Nat.zero_add] at hid
        omega
    unfold knownStrs knownInts
    rw [this]
    exact ⟨fun x hx => (by cases hx), fun x hx => (by cases hx)⟩
  · have inj : ∀ b, tryGetIdForAttr cfg b = tryGetIdForAttr cfg a → b.map Char.toLower = a.map Char.toLower := by
      intro b hb
      obtain ⟨_, d, h1, h2⟩ := tryGetId_lt hne
      obtain ⟨_, d', h3, h4⟩ := tryGetId_lt (by rw [hb]; exact hne)
      rw [hb, h1] at h3
      cases h3
      exact h4.symm.trans h2
    obtain ⟨k1, k2⟩ := known_tables hne
    rw [k1, k2]
    constructor
    · intro x hx
      obtain ⟨e, he, c, hc, h1, h2⟩ := hf.strs _ x hx
      obtain ⟨q, hq, rfl⟩ := List.mem_map.1 he
      exact ⟨q, hq, c, hc, inj _ h1, h2⟩
    · intro x hx
      obtain ⟨e, he, c, hc, h1, h2⟩ := hf.ints _ x hx
      obtain ⟨q, hq, rfl⟩ := List.mem_map.1 he
      exact ⟨q, hq, c, hc, inj _ h1, h2⟩

theorem known_nodup {cfg : Config} (h : TablesOK cfg) (a : Str) : (knownStrs cfg a).Nodup ∧ (knownInts cfg a).Nodup := by
  have hs : ∀ v, (strTable cfg v).Nodup := h.strNodup
  have hi : ∀ v, (intTable cfg v).Nodup := h.intNodup
  constructor
  · unfold knownStrs
    split
    · simp
    · rename_i v _
      have := hs v
      unfold strTable findStrMap at this
      split <;> rename_i hm
      · simp
      · rw [hm] at this; exact this
  · unfold knownInts
    split
    · simp
    · rename_i v _
      have := hi v
      unfold intTable findIntMap at this
      split <;> rename_i hm
      · simp
      · rw [hm] at this; exact this

/-- a value kept apart makes one more -/
theorem cons_filter_nodup {α : Type} [DecidableEq α] {l : List α} (h : l.Nodup) (x : α) : (x :: l.filter (· ≠ x)).Nodup := by
  rw [List.nodup_cons]
  exact ⟨by simp, h.filter _⟩

/-- there is room for the constants of every request -/
theorem enough_room [Floats] (hd : ∀ d ∈ decls, OrdinaryDecl d) (hnames : (decls.map (·.1)).Nodup) {cfg : Config}
    (hdom : cfg.domains = (makeTree cap min decls).cfg.domains) (hlen : cfg.domains.length < invalidId) (hok : TablesOK cfg)
    (hf : FromConsts cfg (qs.map Req.expr)) (he : Enough decls qs) {q : Req} (hq : q ∈ qs)
    (ha : Accepts (makeTree cap min decls).cfg.domains q.expr) (hs : SpecialTyped (makeTree cap min decls).cfg.domains q.expr) :
    (∀ c ∈ strConsts q.expr, RoomFor decls cfg c.1 c.2) ∧ (∀ c ∈ enumConsts q.expr, RoomForInt decls cfg c.1 c.2) := by
  constructor
  · intro c hc
    obtain ⟨t, h1, h2⟩ := str_typed ha hs c hc
    obtain ⟨d, h3, h4, rfl⟩ := declared_named h1
    obtain ⟨n, h5, h6, h7, h8⟩ := named_limit hd hnames h3 h4 h2
    rcases h8 with h8 | ⟨h8, h9⟩
    · right
      refine ⟨n, h5, h8, ?_⟩
      refine he.strs c.1 n h5 h8 _ (cons_filter_nodup (known_nodup hok c.1).1 c.2) fun x hx => ?_
      rcases List.mem_cons.1 hx with rfl | hx
      · exact ⟨q, hq, c, hc, rfl, rfl⟩
      · exact (known_used hlen hf c.1).1 x (List.mem_filter.1 hx).1
    · left
      intro d' hd' hn'
      rw [hdom] at hd'
      obtain ⟨x, _, g1, g2⟩ := named_decl hnames hd' hn'
      obtain ⟨y, _, g3, g4⟩ := named_decl hnames h3 h4
      rw [g1] at g3
      cases g3
      rw [g2, ← g4]
      exact h9
  · intro c hc
    by_cases hty : ∃ d ∈ (makeTree cap min decls).cfg.domains, d.attr.attr = lowerKey c.1 ∧ d.bound.ty = .intEnum
    · obtain ⟨d, h3, h4, h2⟩ := hty
      obtain ⟨n, h5, h6, h7, h8⟩ := named_limit hd hnames h3 h4 (by rw [h2]; simp)
      rcases h8 with h8 | ⟨h8, h9⟩
      · right
        refine ⟨n, h5, h8, ?_⟩
        refine he.ints c.1 n h5 h8 _ (cons_filter_nodup (known_nodup hok c.1).2 c.2) fun x hx => ?_
        rcases List.mem_cons.1 hx with rfl | hx
        · exact ⟨q, hq, c, hc, rfl, rfl⟩
        · exact (known_used hlen hf c.1).2 x (List.mem_filter.1 hx).1
      · left
        intro d' hd' hn' _
        rw [hdom] at hd'
        obtain ⟨x, _, g1, g2⟩ := named_decl hnames hd' hn'
        obtain ⟨y, _, g3, g4⟩ := named_decl hnames h3 h4
        rw [g1] at g3
        cases g3
        rw [g2, ← g4]
        exact h9
    · left
      intro d' hd' hn' ht'
      rw [hdom] at hd'
      exact absurd ⟨d', hd', hn', ht'⟩ hty

/-- the strings of the next request fit -/
theorem enough_fits [Floats] (hd : ∀ d ∈ decls, OrdinaryDecl d) (hnames : (decls.map (·.1)).Nodup) {cfg : Config} {q : Req}
    (hdom : cfg.domains = (makeTree cap min decls).cfg.domains) (hlen : cfg.domains.length < invalidId) (hok : TablesOK cfg)
    (hf : FromConsts cfg (qs.map Req.expr)) (he : Enough decls (qs ++ [q]))
    (ha : Accepts (makeTree cap min decls).cfg.domains q.expr)
    (hk : ∀ a, (knownStrs cfg a).length + numConstants q.expr < 2 ^ 64 - 1) : FitsStrs cfg q.expr := by
  rw [fits_preds]
  intro p hp a ts n ht hn
  obtain ⟨t, h1, h2⟩ := texts_typed ha hp ht
  obtain ⟨d, h3, h4, rfl⟩ := declared_named h1
  obtain ⟨m, h5, h6, h7, h8⟩ := named_limit hd hnames h3 h4 h2
  have hm : n = m := by
    unfold strLimit domainOf at hn
    split at hn
    · cases hn
    · rename_i d' hd'
      have e1 := List.mem_of_find?_eq_some hd'
      have e2 : d'.attr.attr = lowerKey a := by simpa [lowerKey] using List.find?_some hd'
      rw [hdom] at e1
      obtain ⟨x, _, g1, g2⟩ := named_decl hnames e1 e2
      obtain ⟨y, _, g3, g4⟩ := named_decl hnames h3 h4
      rw [g1] at g3
      cases g3
      rw [g2, ← g4, h7] at hn
      have : m - 1 + 1 = n := by simpa using hn
      omega
  subst hm
  rcases h8 with h8 | ⟨h8, _⟩
  · rw [← List.length_append]
    refine he.strs a n h5 h8 _ ?_ fun x hx => ?_
    · rw [List.nodup_append]
      refine ⟨(known_nodup hok a).1, (he.once q (by simp) p hp a ts n ht h5 h8).filter _, ?_⟩
      intro x hx y hy hxy
      subst hxy
      have := (List.mem_filter.1 hy).2
      simp only [decide_eq_true_eq] at this
      exact this hx
    · rcases List.mem_append.1 hx with hx | hx
      · exact ((known_used hlen hf a).1 x hx).imp fun _ h => ⟨List.mem_append_left _ h.1, h.2⟩
      · exact ⟨q, by simp, (a, x), texts_consts hp ht x (List.mem_filter.1 hx).1, rfl, rfl⟩
  · have h9 := hk a
    have h10 : (ts.filter (fun s => s ∉ knownStrs cfg a)).length ≤ ts.length := List.length_filter_le _ _
    have h11 := texts_length hp ht
    have : sizeMax = 2 ^ 64 - 1 := rfl
    omega

end

/-- without float attributes that have limits, no value of a well-typed event is too close to a number such an attribute is compared with -/
theorem floatFree_separated {T : Config} {ev : List EventVar} (hnd : (T.domains.map (fun d => d.attr.attr)).Nodup)
    (hw : WellTyped T.domains ev) {e : Expr} (h : FloatFree T.domains e) : Separated (HasLimits T) (eventOf ev) e := by
  have key : ∀ {v : AttrVar} {x : Rat}, v.attr ∈ exprNames e → HasLimits T v.attr → (eventOf ev).get v = some (.float x) → False := by
    rintro v x hm ⟨d, hd, hn, hl⟩ hx
    simp only [Event.get, eventOf, Option.map_eq_some_iff] at hx
    obtain ⟨u, hu, hval⟩ := hx
    have h1 : u ∈ ev := by simpa using List.mem_of_find?_eq_some hu
    have h2 : lower u.attr = lower v.attr := by simpa using List.find?_some hu
    obtain ⟨t, ht, hf⟩ := hw u h1
    rw [hval] at hf
    have : t = .float := by cases t <;> first | rfl | exact hf.elim
    rw [this] at ht
    simp only [declaredType] at ht
    rw [show u.attr.map Char.toLower = v.attr.map Char.toLower from h2, Option.map_eq_some_iff] at ht
    obtain ⟨d', hd', hty⟩ := ht
    have e1 : d'.attr.attr = v.attr.map Char.toLower := by simpa using List.find?_some hd'
    have e2 : d' = d := by
      have hm' := List.mem_of_find?_eq_some hd'
      exact (List.inj_on_of_nodup_map hnd) hm' hd (e1.trans hn.symm)
    subst e2
    exact h v.attr hm d' hd' hl hty
  clear h
  induction e with
  | leaf p =>
    cases p with
    | compare op v c => cases c <;> exact fun hl x hx => (key (by simp [exprNames, predNames]) hl hx).elim
    | equality op v c => cases c <;> first | exact fun hl x hx => (key (by simp [exprNames, predNames]) hl hx).elim | trivial
    | _ => trivial
  | not e ih => exact ih key
  | and l r ihl ihr | or l r ihl ihr =>
    exact ⟨ihl fun hn => key (List.mem_append_left _ hn), ihr fun hn => key (List.mem_append_right _ hn)⟩

theorem floatFree_fit {ds : List Domain} {e : Expr} (h : FloatFree ds e) : FloatFit ds e := fun n hn d hd hl a b hb =>
  absurd (show d.bound.ty = .float by rw [hb]) (h n hn d hd hl)

/-- without float attributes that have limits, every event keeps clear -/
theorem clear_of_floatFree {ds : List Domain} {ev : List EventVar} {q : Req} (hnd : (ds.map (fun d => d.attr.attr)).Nodup)
    (hw : WellTyped ds ev) (h : FloatFree ds q.expr) : Clear ds ev q :=
  floatFree_separated (T := { makeConfig 0 0 with domains := ds }) hnd hw h

section
variable {R : Rounding} {cap min : Nat} {decls : List (Str × Decl × Bool)} {qs : List Req}

/-- the state of a history of ordinary insertions, with room for `n` more constants -/
structure Quiet [Floats] (ds : List Domain) (n : Nat) (w : World) : Prop where
  grown : Grown (CopesAt ds) w
  doms : w.tree.cfg.domains = ds
  live : ∀ q ∈ w.live, Fitting ds q.expr ∧ FloatFit ds q.expr
  strs : ∀ v, (strTable w.tree.cfg v).length + n < invalidId
  ints : ∀ v, (intTable w.tree.cfg v).length + n < invalidId

theorem quiet_step [Floats] {ds : List Domain} (hR : Sane R) {n : Nat} {w : World} {q : Req} (s : Quiet ds (numConstants q.expr + n) w)
    (hm : NarrowCfg w.tree.cfg) (hl : LowerNames ds) (hf : Fitting ds q.expr) (hs : SpecialTyped ds q.expr) (hx : FloatFit ds q.expr) :
    ∃ w', w.step R (.insert q) = .ok w' ∧ Quiet ds n w' := by
  have hin : ∀ {e : Expr}, FloatFit ds e → FloatsIn (CopesAt ds) w.tree.cfg e := by
    intro e h
    rw [← s.doms] at h ⊢
    exact floatFit_in s.grown.len h
  have hP : CopesDoms (CopesAt ds) w.tree.cfg := by rw [← s.doms]; exact copesAt_doms
  have hfits : OpFits (CopesAt ds) w (.insert q) := by
    refine ⟨?_, hin hx, ?_, ?_⟩ <;> rw [s.doms] <;> assumption
  obtain ⟨w', hw⟩ := s.grown.step_total hR hm hP (fun q hq => by rw [s.doms]; exact ⟨(s.live q hq).1, hin (s.live q hq).2⟩) hfits
  obtain ⟨b, hi⟩ := step_insert hw
  have hg : Gains (numConstants q.expr) (numConstants q.expr) w.tree.cfg w'.tree.cfg := by
    rw [← numConstants_parse]; exact insert_gains hi
  have hrun : w.run R [.insert q] = .ok w' := by simp only [World.run, hw]
  have hdom : w'.tree.cfg.domains = w.tree.cfg.domains := (inserts_bound (by simp) hrun).1
  have hstrs : ∀ v, (strTable w'.tree.cfg v).length + n < invalidId := fun v => by
    have := s.strs v; have := hg.strs v; omega
  have hints : ∀ v, (intTable w'.tree.cfg v).length + n < invalidId := fun v => by
    have := s.ints v; have := hg.ints v; omega
  have hsm : Small w'.tree.cfg :=
    ⟨by rw [hdom]; exact Nat.le_of_lt s.grown.len, fun v => by have := hstrs v; omega, fun v => by have := hints v; omega⟩
  have hP' : CopesDoms (CopesAt ds) w'.tree.cfg := by rw [← s.doms, ← hdom]; exact copesAt_doms
  refine ⟨w', hw, s.grown.step (hP.fine s.grown.prune.cfg.doms)
    (hP'.fine (step_prune s.grown.prune s.grown.tables hsm (o := .insert q) trivial hw).1.cfg.doms) hsm (o := .insert q) trivial hw, hdom.trans s.doms, ?_, hstrs, hints⟩
  intro x hx'
  simp only [World.step] at hw
  split at hw
  · cases hw
  · cases hw
    rcases List.mem_cons.1 hx' with rfl | hx'
    · exact ⟨hf, hx⟩
    · exact s.live x hx'
  · cases hw; exact s.live x hx'

theorem makeTree_mid [Floats] (hd : ∀ d ∈ decls, OrdinaryDecl d) : MidCfg (makeTree cap min decls).cfg ∧ LowerNames (makeTree cap min decls).cfg.domains := by
  constructor
  · intro x hx
    rw [makeTree_domains] at hx
    obtain ⟨i, hi, rfl⟩ := List.mem_mapIdx.1 hx
    have h0 := (hd _ (List.getElem_mem hi)).mid
    generalize decls[i] = d at h0
    obtain ⟨nm, dc, al⟩ := d
    have w : ∀ {k : Int}, MidInt k → MidScalar (.i k) := midInt_scalar
    cases dc with
    | int a b | intList a b =>
      exact ⟨fun x hx => (by cases hx; exact h0.1.imp_right w), fun x hx => (by cases hx; exact h0.2.imp_right w)⟩
    | _ => exact ⟨fun x hx => (by cases hx), fun x hx => (by cases hx)⟩
  · intro x hx
    rw [makeTree_domains] at hx
    obtain ⟨i, hi, rfl⟩ := List.mem_mapIdx.1 hx
    exact (hd _ (List.getElem_mem hi)).lower

theorem makeTree_quiet [Floats] {n : Nat} (hcap : cap % 256 ≠ 0) (hd : ∀ d ∈ decls, OrdinaryDecl d) (hsize : decls.length + n < 2 ^ 64 - 1) :
    Quiet (makeTree cap min decls).cfg.domains n (World.init (makeTree cap min decls)) := by
  have hinv : invalidId = 2 ^ 64 - 1 := rfl
  have hlen : (makeTree cap min decls).cfg.domains.length = decls.length := by rw [makeTree_domains, List.length_mapIdx]
  refine ⟨Grown.init (fun d h => (hd d h).proper) hcap (by rw [hlen, hinv]; omega), rfl, fun q hq => (by cases hq), fun v => ?_, fun v => ?_⟩
  · show (strTable (makeTree cap min decls).cfg v).length + _ < _
    rw [makeTree_table, hinv]; simp only [List.length_nil]; omega
  · show (intTable (makeTree cap min decls).cfg v).length + _ < _
    have : intTable (makeTree cap min decls).cfg v = [] := by
      simp [intTable, findIntMap, (makeTree_maps cap min decls).2]
    rw [this, hinv]; simp only [List.length_nil]; omega

theorem quiet_run [Floats] {ds : List Domain} (hR : Sane R) (hl : LowerNames ds) (hm : ∀ w : World, w.tree.cfg.domains = ds → NarrowCfg w.tree.cfg)
    {n : Nat} : ∀ {qs : List Req} {w : World}, Quiet ds (opsConstants (qs.map Op.insert) + n) w →
    (∀ q ∈ qs, Fitting ds q.expr ∧ SpecialTyped ds q.expr ∧ FloatFit ds q.expr) →
    ∃ w', w.run R (qs.map Op.insert) = .ok w' ∧ Quiet ds n w' := by
  intro qs
  induction qs with
  | nil => intro w s _; exact ⟨w, rfl, by simpa [opsConstants] using s⟩
  | cons q qs ih =>
    intro w s hq
    have h0 := hq q List.mem_cons_self
    simp only [List.map_cons, opsConstants, opConstants, Nat.add_assoc] at s
    obtain ⟨w1, h1, s1⟩ := quiet_step hR s (hm w s.doms) hl h0.1 h0.2.1 h0.2.2
    obtain ⟨w', h', s'⟩ := ih s1 fun x hx => hq x (List.mem_cons_of_mem _ hx)
    exact ⟨w', by simp only [List.map_cons, World.run, h1, h'], s'⟩

theorem history_quiet [Floats] (hR : Sane R) (hcap : cap % 256 ≠ 0) (hd : ∀ d ∈ decls, OrdinaryDecl d)
    (hsize : decls.length + opsConstants (qs.map Op.insert) < 2 ^ 64 - 1)
    (hq : ∀ q ∈ qs, Ordinary decls (makeTree cap min decls).cfg.domains q) :
    ∃ w, (World.init (makeTree cap min decls)).run R (qs.map Op.insert) = .ok w ∧ Quiet (makeTree cap min decls).cfg.domains 0 w := by
  obtain ⟨hmid, hlow⟩ := makeTree_mid (cap := cap) (min := min) hd
  refine quiet_run hR hlow (fun w hw => ?_) (makeTree_quiet hcap hd (by simpa using hsize)) fun q h =>
    ⟨(hq q h).fitting, (hq q h).special, (hq q h).floats⟩
  have := hmid.narrow
  unfold NarrowCfg at this ⊢
  rw [hw]; exact this

/-- what is interned comes from the requests -/
theorem inserts_from : ∀ {qs : List Req} {w w' : World} {es : List Expr}, FromConsts w.tree.cfg es → w.run R (qs.map Op.insert) = .ok w' →
    FromConsts w'.tree.cfg (es ++ qs.map Req.expr) := by
  intro qs
  induction qs with
  | nil => intro w w' es hc h; cases h; simpa using hc
  | cons q qs ih =>
    intro w w' es hc h
    simp only [List.map_cons, World.run] at h
    split at h
    · cases h
    · rename_i w1 h1
      obtain ⟨b, hi⟩ := step_insert h1
      have hf := ih (insert_from hc hi) h
      have hm : ∀ e, e ∈ q.expr :: es ++ qs.map Req.expr → e ∈ es ++ (q :: qs).map Req.expr := by
        intro e he
        simp only [List.cons_append, List.mem_cons, List.mem_append, List.map_cons] at he ⊢
        tauto
      exact ⟨fun u x hx => (hf.strs u x hx).imp fun _ h => ⟨hm _ h.1, h.2⟩, fun u x hx => (hf.ints u x hx).imp fun _ h => ⟨hm _ h.1, h.2⟩⟩

theorem makeTree_from : FromConsts (makeTree cap min decls).cfg [] := by
  constructor
  · intro u x hx; rw [makeTree_table] at hx; cases hx
  · intro u x hx
    have : intTable (makeTree cap min decls).cfg u = [] := by
      simp [intTable, findIntMap, (makeTree_maps cap min decls).2]
    rw [this] at hx; cases hx

/-- every insertion returns and is accepted -/
theorem ordinary_run [Floats] (hR : Sane R) (hcap : cap % 256 ≠ 0) (hd : ∀ d ∈ decls, OrdinaryDecl d) (hnames : (decls.map (·.1)).Nodup)
    (hsize : decls.length + opsConstants (qs.map Op.insert) < 2 ^ 64 - 1)
    (hq : ∀ q ∈ qs, Ordinary decls (makeTree cap min decls).cfg.domains q) (he : Enough decls qs) :
    ∃ w, (World.init (makeTree cap min decls)).run R (qs.map Op.insert) = .ok w ∧ w.live = qs.reverse := by
  induction qs using snoc_induction with
  | nil => exact ⟨_, rfl, rfl⟩
  | snoc qs q ih =>
    have hqs : ∀ x ∈ qs, Ordinary decls (makeTree cap min decls).cfg.domains x := fun x hx => hq x (List.mem_append_left _ hx)
    have hq0 := hq q (by simp)
    rw [List.map_append, opsConstants_append] at hsize
    simp only [List.map_cons, List.map_nil, opsConstants, opConstants] at hsize
    obtain ⟨w1, h1, hl1⟩ := ih (by omega) hqs (enough_mono he)
    obtain ⟨w2, h2, _⟩ := history_quiet (qs := qs ++ [q]) hR hcap hd
      (by rw [List.map_append, opsConstants_append]; simp only [List.map_cons, List.map_nil, opsConstants, opConstants]; omega)
      hq
    refine ⟨w2, h2, ?_⟩
    rw [List.map_append] at h2
    obtain ⟨w1', h1', h3⟩ := run_append h2
    rw [h1] at h1'
    cases h1'
    simp only [List.map_cons, List.map_nil, World.run] at h3
    split at h3
    · cases h3
    · rename_i w3 h4
      cases h3
      have hdom : w1.tree.cfg.domains = (makeTree cap min decls).cfg.domains :=
        (inserts_bound (fun o ho => by obtain ⟨x, _, rfl⟩ := List.mem_map.1 ho; exact ⟨x, rfl⟩) h1).1
      have hg := inserts_gains (fun o ho => by obtain ⟨x, _, rfl⟩ := List.mem_map.1 ho; exact ⟨x, rfl⟩) h1
      have hacc : ∀ b t, w1.tree.insert R q.id q.consts (parseBuild q.expr) = .ok (b, t) → b = true := by
        intro b t hi
        refine (C30_insert_accepts_exactly R cap min decls (qs.map Op.insert) w1 h1
          (fun o ho => by obtain ⟨x, hx, rfl⟩ := List.mem_map.1 ho; exact ⟨x, rfl, (hqs x hx).lower⟩)
          (fun d h => (hd d h).positive) (by omega) q hq0.lower (by omega) b t hi).2 ⟨?_, ?_, hq0.supplied⟩
        · rw [hdom]; exact accepts_declared hq0.fitting.accepts
        · have hfr := inserts_from (es := []) makeTree_from h1
          rw [List.nil_append] at hfr
          have hlen : w1.tree.cfg.domains.length < invalidId := by
            have : invalidId = 2 ^ 64 - 1 := rfl
            rw [hdom, makeTree_domains, List.length_mapIdx]; omega
          refine enough_fits hd hnames hdom hlen (run_tablesOK h1) hfr he hq0.fitting.accepts (fun a => ?_)
          have : (knownStrs w1.tree.cfg a).length ≤ opsConstants (qs.map Op.insert) := by
            unfold knownStrs
            split
            · simp
            · rename_i v hv
              have h1 := hg.strs v
              have h2 : (strTable (World.init (makeTree cap min decls)).tree.cfg v).length = 0 := by
                show (strTable (makeTree cap min decls).cfg v).length = 0
                rw [makeTree_table]; rfl
              unfold strTable findStrMap at h1
              split
              · simp
              · rename_i m hm
                rw [hm] at h1
                dsimp only at h1
                unfold strTable findStrMap at h2
                omega
          omega
      simp only [World.step] at h4
      split at h4
      · cases h4
      · cases h4
        simp [hl1]
      · rename_i hi
        exact absurd (hacc _ _ hi) (by simp)

/-- C47: ordinary use is totally correct.  Declare attributes, insert any number of ordinary requests with distinct ids, search with any
well-typed event that keeps clear of the numbers float attributes with limits are compared with: every insertion returns and is accepted; the search returns; if the event leaves a mandatory attribute out it returns
false, otherwise it adds to the report exactly the ids of the requests whose expression is true on the event, each once. -/
theorem C47_ordinary_use_correct [Floats] (geo : GeoTest) (R : Rounding) (hR : Sane R) (cap min : Nat) (decls : List (Str × Decl × Bool))
    (qs : List Req) (hcap : cap % 256 ≠ 0) (hd : ∀ d ∈ decls, OrdinaryDecl d) (hnames : (decls.map (·.1)).Nodup)
    (hsize : decls.length + opsConstants (qs.map Op.insert) < 2 ^ 64 - 1)
    (hq : ∀ q ∈ qs, Ordinary decls (makeTree cap min decls).cfg.domains q) (he : Enough decls qs) (hids : (qs.map Req.id).Nodup) :
    ∃ w, (World.init (makeTree cap min decls)).run R (qs.map Op.insert) = .ok w ∧ w.live = qs.reverse ∧
      ∀ ev, WellTyped (makeTree cap min decls).cfg.domains ev → EventInRange ev →
        (∀ q ∈ qs, Clear (makeTree cap min decls).cfg.domains ev q) → ∀ rep,
        ((∃ d ∈ decls, d.2.2 = false ∧ ¬ sets ev d.1) → w.tree.search geo ev rep = .ok none) ∧
        ((∀ d ∈ decls, d.2.2 = false → sets ev d.1) →
          ∃ rep' ids, w.tree.search geo ev rep = .ok (some rep') ∧ rep'.subs = rep.subs ++ ids ∧ ids.Nodup ∧
            ∀ id, id ∈ ids ↔ ∃ q ∈ qs, q.id = id ∧ sat geo (constants q.consts) (eventOf ev) q.expr) := by
  obtain ⟨w, h, hlive⟩ := ordinary_run hR hcap hd hnames hsize hq he
  refine ⟨w, h, hlive, fun ev hev hrange hclear rep => ?_⟩
  have hins : ∀ o ∈ qs.map Op.insert, ∃ q, o = .insert q := fun o ho => by obtain ⟨x, _, rfl⟩ := List.mem_map.1 ho; exact ⟨x, rfl⟩
  have hdom : w.tree.cfg.domains = (makeTree cap min decls).cfg.domains := (inserts_bound hins h).1
  obtain ⟨w', h', st⟩ := history_quiet hR hcap hd hsize hq
  rw [h] at h'; cases h'
  have hsm : Small w.tree.cfg := ⟨Nat.le_of_lt st.grown.len, st.strs, st.ints⟩
  have hidl : (w.live.map Req.id).Nodup := by rw [hlive, List.map_reverse]; exact (List.reverse_perm _).nodup_iff.2 hids
  have hmem : ∀ q, q ∈ w.live ↔ q ∈ qs := fun q => by rw [hlive, List.mem_reverse]
  have hmod : ∀ o ∈ qs.map Op.insert, ModerateOp o := fun o ho => by obtain ⟨x, _, rfl⟩ := List.mem_map.1 ho; trivial
  have hso : Sound decls (qs.map Op.insert) w := by
    refine ⟨fun d h => (hd d h).proper, hmod, hsm, st.grown.len, hidl, fun q hm => ?_, fun q hm => ?_, fun q hm => ?_⟩
    · exact (hq q ((hmem q).1 hm)).supported.clocked
    · rw [hdom]; exact (hq q ((hmem q).1 hm)).fitting.accepts
    · rw [hdom]; exact (hq q ((hmem q).1 hm)).special
  have hwt : WellTyped w.tree.cfg.domains ev := by rw [hdom]; exact hev
  obtain ⟨env, _, _, henv, _⟩ := hso.walk (geo := geo) h hwt
  have hnd : (w.tree.cfg.domains.map (fun d => d.attr.attr)).Nodup := by
    rw [hdom, makeTree_domains]
    have : (decls.mapIdx declDomain).map (fun d => d.attr.attr) = decls.map (·.1) := by
      apply List.ext_getElem?
      intro i
      simp only [List.getElem?_map, List.getElem?_mapIdx]
      cases decls[i]? <;> rfl
    rw [this]; exact hnames
  have hmand : (∃ d ∈ w.tree.cfg.domains, d.allowUndefined = false ∧ ¬ Spec.sets ev d.attr.attr) ↔
      ∃ d ∈ decls, d.2.2 = false ∧ ¬ sets ev d.1 := by
    rw [hdom, makeTree_domains]
    constructor
    · rintro ⟨d, h1, h2, h3⟩
      obtain ⟨i, hi, rfl⟩ := List.mem_mapIdx.1 h1
      exact ⟨decls[i], List.getElem_mem _, h2, h3⟩
    · rintro ⟨d, h1, h2, h3⟩
      obtain ⟨i, hi, rfl⟩ := List.getElem_of_mem h1
      exact ⟨declDomain i decls[i], List.mem_mapIdx.2 ⟨i, hi, rfl⟩, h2, h3⟩
  obtain ⟨hm1, hm2⟩ := C07_mandatory_variables geo w.tree ev rep hnd henv
  refine ⟨fun hx => hm1 (hmand.2 hx), fun hx => ?_⟩
  have hx' : ¬ ∃ d ∈ w.tree.cfg.domains, d.allowUndefined = false ∧ ¬ Spec.sets ev d.attr.attr := by
    rw [hmand]; rintro ⟨d, h1, h2, h3⟩; exact h3 (hx d h1 h2)
  obtain ⟨r, hr⟩ := C29_search_returns_partial geo R cap min decls _ w h hso ev hwt rep
  rcases hm2 hx' with ⟨x, he⟩ | ⟨rep', hs⟩
  · rw [hr] at he; cases he
  · have hor : Orderly decls (qs.map Op.insert) w := by
      refine ⟨fun d h => (hd d h).proper, fun o ho => ⟨hmod o ho, ?_⟩, hsm, hidl⟩
      obtain ⟨q, hm, rfl⟩ := List.mem_map.1 ho
      have hfr := inserts_from (es := []) makeTree_from h
      rw [List.nil_append] at hfr
      exact ⟨enough_room hd hnames hdom st.grown.len (run_tablesOK h) hfr he hm (hq q hm).fitting.accepts (hq q hm).special,
        (hq q hm).supported.inRange⟩
    have hpr : ∀ q ∈ w.live, Prunable decls w.tree.cfg ev q := by
      intro q hm
      have := hq q ((hmem q).1 hm)
      have hcl := hclear q ((hmem q).1 hm)
      refine ⟨this.supported, ?_, ?_⟩ <;> unfold HasLimits <;> rw [hdom]
      · exact this.safe
      · exact hcl
    obtain ⟨ids, a1, a2, a3⟩ := C01_search_exact_partial geo R cap min decls _ w h hor ev hrange hpr rep rep' hs
    refine ⟨rep', ids, hs, a1, a2, fun id => ?_⟩
    rw [a3]
    simp only [hmem]

end

/-! ### with texts -/

theorem enough_perm {decls : List (Str × Decl × Bool)} {qs qs' : List Req} (h : Enough decls qs) (hp : qs.Perm qs') : Enough decls qs' where
  strs a n h1 h2 l hl hx := h.strs a n h1 h2 l hl fun x hm => by
    obtain ⟨q, hq, hc⟩ := hx x hm
    exact ⟨q, hp.mem_iff.2 hq, hc⟩
  ints a n h1 h2 l hl hx := h.ints a n h1 h2 l hl fun x hm => by
    obtain ⟨q, hq, hc⟩ := hx x hm
    exact ⟨q, hp.mem_iff.2 hq, hc⟩
  once q hq := h.once q (hp.mem_iff.2 hq)

theorem opsConstants_perm {qs qs' : List Req} (hp : qs.Perm qs') : opsConstants (qs.map Op.insert) = opsConstants (qs'.map Op.insert) := by
  induction hp with
  | nil => rfl
  | cons x _ ih => simp only [List.map_cons, opsConstants] at ih ⊢; omega
  | swap x y l => simp only [List.map_cons, opsConstants]; omega
  | trans _ _ h1 h2 => exact h1.trans h2

/-- C04, for ordinary use.  The same requests inserted in another order, into trees with whatever capacities: both orders are accepted in
full, and on every well-typed event with numbers in range that keeps clear of the requests' decimals, either both searches refuse the event
or both answer, with the same ids, each once. -/
theorem C04_ordinary_order_partial [Floats] (geo : GeoTest) (R : Rounding) (hR : Sane R) (cap min cap' min' : Nat)
    (decls : List (Str × Decl × Bool)) (qs qs' : List Req) (hperm : qs.Perm qs') (hcap : cap % 256 ≠ 0) (hcap' : cap' % 256 ≠ 0)
    (hd : ∀ d ∈ decls, OrdinaryDecl d) (hnames : (decls.map (·.1)).Nodup) (hsize : decls.length + opsConstants (qs.map Op.insert) < 2 ^ 64 - 1)
    (hq : ∀ q ∈ qs, Ordinary decls (makeTree cap min decls).cfg.domains q) (he : Enough decls qs) (hids : (qs.map Req.id).Nodup) :
    ∃ w w', (World.init (makeTree cap min decls)).run R (qs.map Op.insert) = .ok w ∧
      (World.init (makeTree cap' min' decls)).run R (qs'.map Op.insert) = .ok w' ∧ w.live = qs.reverse ∧ w'.live = qs'.reverse ∧
      ∀ ev, WellTyped (makeTree cap min decls).cfg.domains ev → EventInRange ev →
        (∀ q ∈ qs, Clear (makeTree cap min decls).cfg.domains ev q) →
        (w.tree.search geo ev .empty = .ok none ∧ w'.tree.search geo ev .empty = .ok none) ∨
        ∃ r r', w.tree.search geo ev .empty = .ok (some r) ∧ w'.tree.search geo ev .empty = .ok (some r') ∧
          r.subs.Nodup ∧ r.subs.Perm r'.subs := by
  have hdom : (makeTree cap' min' decls).cfg.domains = (makeTree cap min decls).cfg.domains := by rw [makeTree_domains, makeTree_domains]
  obtain ⟨w, h, hl, hs⟩ := C47_ordinary_use_correct geo R hR cap min decls qs hcap hd hnames hsize hq he hids
  obtain ⟨w', h', hl', hs'⟩ := C47_ordinary_use_correct geo R hR cap' min' decls qs' hcap' hd hnames
    (by rw [← opsConstants_perm hperm]; exact hsize) (fun q hm => by rw [hdom]; exact hq q (hperm.mem_iff.2 hm)) (enough_perm he hperm)
    ((hperm.map Req.id).nodup_iff.1 hids)
  refine ⟨w, w', h, h', hl, hl', fun ev hev hr hc => ?_⟩
  obtain ⟨a1, a2⟩ := hs ev hev hr hc .empty
  obtain ⟨b1, b2⟩ := hs' ev (by rw [hdom]; exact hev) hr (fun q hm => by rw [hdom]; exact hc q (hperm.mem_iff.2 hm)) .empty
  by_cases hm : ∃ d ∈ decls, d.2.2 = false ∧ ¬ sets ev d.1
  · exact .inl ⟨a1 hm, b1 hm⟩
  · have hm' : ∀ d ∈ decls, d.2.2 = false → sets ev d.1 := fun d h1 h2 => by
      by_contra h3
      exact hm ⟨d, h1, h2, h3⟩
    obtain ⟨r, ids, c1, c2, c3, c4⟩ := a2 hm'
    obtain ⟨r', ids', d1, d2, d3, d4⟩ := b2 hm'
    have e1 : r.subs = ids := by rw [c2]; rfl
    have e2 : r'.subs = ids' := by rw [d2]; rfl
    refine .inr ⟨r, r', c1, d1, by rw [e1]; exact c3, ?_⟩
    rw [e1, e2, List.perm_ext_iff_of_nodup c3 d3]
    intro id
    rw [c4, d4]
    simp only [hperm.mem_iff]

theorem live_length {R : Rounding} : ∀ {qs : List Req} {w w' : World}, w.run R (qs.map Op.insert) = .ok w' →
    w'.live.length ≤ w.live.length + qs.length := by
  intro qs
  induction qs with
  | nil => intro w w' h; cases h; simp
  | cons q qs ih =>
    intro w w' h
    simp only [List.map_cons, World.run] at h
    split at h
    · cases h
    · rename_i w1 h1
      have h2 := ih h
      have h3 : w1.live.length ≤ w.live.length + 1 := by
        simp only [World.step] at h1
        repeat' split at h1
        all_goals (cases h1; try simp)
      simp only [List.length_cons]; omega

/-- insertions by text that are all accepted as requests are all accepted -/
theorem texts_run {R : Rounding} {tqs : List TextReq} {qs : List Req} (hs : List.Forall₂ ReqSays tqs qs) :
    ∀ {tw : TextWorld} {w w' : World}, (∀ q ∈ tqs, q.text.length < 1990) → tw.tree = w.tree → w.run R (qs.map Op.insert) = .ok w' →
      w'.live.length = w.live.length + qs.length →
      ∃ tw', tw.run R (tqs.map TextOp.insert) = .ok tw' ∧ tw'.tree = w'.tree ∧ tw'.live = tqs.reverse ++ tw.live := by
  induction hs with
  | nil => intro tw w w' _ ht h _; cases h; exact ⟨tw, rfl, ht, by simp⟩
  | @cons tq q tqs qs hq _ ih =>
    intro tw w w' hlen ht h hl
    simp only [List.map_cons, World.run] at h
    split at h
    · cases h
    · rename_i w1 h1
      have h2 := live_length h
      simp only [World.step] at h1
      split at h1
      · cases h1
      · rename_i t hi
        cases h1
        have hp := parseText_short (hlen tq (by simp)) hq.expr
        have hstep : tw.step R (.insert tq) = .ok { tw with tree := t, live := tq :: tw.live } := by
          simp only [TextWorld.step, Tree.insertText, hp, ht, hq.id, hq.consts, hi]
        obtain ⟨tw', a1, a2, a3⟩ := ih (tw := { tw with tree := t, live := tq :: tw.live }) (fun x hx => hlen x (List.mem_cons_of_mem _ hx))
          rfl h (by simp only [List.length_cons] at hl ⊢; omega)
        exact ⟨tw', by simp only [List.map_cons, TextWorld.run, hstep, a1], a2, by rw [a3]; simp⟩
      · cases h1
        simp only [List.length_cons] at hl h2
        omega

/-- C47, from texts to the report: declare attributes, insert any number of texts shorter than 1990 characters that say ordinary requests
with distinct ids, search with any text that says a well-typed event: every insertion returns and is accepted, the search returns, and
reports exactly the ids of the texts that say something true on the event. -/
theorem C47_ordinary_texts_correct [Floats] (geo : GeoTest) (R : Rounding) (hR : Sane R) (cap min : Nat) (decls : List (Str × Decl × Bool))
    (tqs : List TextReq) (qs : List Req) (hs : List.Forall₂ ReqSays tqs qs) (hlen : ∀ q ∈ tqs, q.text.length < 1990)
    (hcap : cap % 256 ≠ 0) (hd : ∀ d ∈ decls, OrdinaryDecl d) (hnames : (decls.map (·.1)).Nodup)
    (hsize : decls.length + opsConstants (qs.map Op.insert) < 2 ^ 64 - 1)
    (hq : ∀ q ∈ qs, Ordinary decls (makeTree cap min decls).cfg.domains q) (he : Enough decls qs) (hids : (tqs.map TextReq.id).Nodup) :
    ∃ w, (TextWorld.init (makeTree cap min decls)).run R (tqs.map TextOp.insert) = .ok w ∧ w.live = tqs.reverse ∧
      ∀ text ev, SaysEvent text ev → WellTyped (makeTree cap min decls).cfg.domains ev → EventInRange ev →
        (∀ q ∈ qs, Clear (makeTree cap min decls).cfg.domains ev q) → ∀ rep,
        ((∃ d ∈ decls, d.2.2 = false ∧ ¬ sets ev d.1) → w.tree.searchText geo text rep = .ok none) ∧
        ((∀ d ∈ decls, d.2.2 = false → sets ev d.1) →
          ∃ rep' ids, w.tree.searchText geo text rep = .ok (some rep') ∧ rep'.subs = rep.subs ++ ids ∧ ids.Nodup ∧
            ∀ id, id ∈ ids ↔ ∃ q ∈ tqs, q.id = id ∧ ∃ e, Says q.text e ∧ sat geo (constants q.consts) (eventOf ev) e) := by
  obtain ⟨w, h, hlive, hall⟩ := C47_ordinary_use_correct geo R hR cap min decls qs hcap hd hnames hsize hq he
    (by rw [← same_ids hs]; exact hids)
  obtain ⟨tw, h1, h2, h3⟩ := texts_run (tw := TextWorld.init (makeTree cap min decls)) hs hlen rfl h
    (by rw [hlive, List.length_reverse]; simp [World.init])
  refine ⟨tw, h1, by simpa [TextWorld.init] using h3, fun text ev hev hwt hr hcl rep => ?_⟩
  rw [(C46_readable_event geo tw.tree text ev hev rep).1, h2]
  obtain ⟨a1, a2⟩ := hall ev hwt hr hcl rep
  refine ⟨a1, fun hx => ?_⟩
  obtain ⟨rep', ids, b1, b2, b3, b4⟩ := a2 hx
  refine ⟨rep', ids, b1, b2, b3, fun id => ?_⟩
  rw [b4]
  constructor
  · rintro ⟨q, hm, rfl, hsat⟩
    obtain ⟨q0, hq0, hsay⟩ := forall₂_mem_right hs hm
    exact ⟨q0, hq0, hsay.id, q.expr, hsay.expr, by rw [hsay.consts]; exact hsat⟩
  · rintro ⟨q0, hm, rfl, e, he, hsat⟩
    obtain ⟨q, hq, hsay⟩ := forall₂_mem_left hs hm
    refine ⟨q, hq, hsay.id.symm, ?_⟩
    rw [says_unique hsay.expr he, ← hsay.consts]
    exact hsat


/-! ### a concrete case -/

theorem nodup_length_le {α : Type} [DecidableEq α] : ∀ {l L : List α}, l.Nodup → (∀ x ∈ l, x ∈ L) → l.length ≤ L.length := by
  intro l
  induction l with
  | nil => intro L _ _; exact Nat.zero_le _
  | cons a l ih =>
    intro L hn hs
    rw [List.nodup_cons] at hn
    have h1 := ih (L := L.erase a) hn.2 fun x hx => (List.mem_erase_of_ne (by rintro rfl; exact hn.1 hx)).2 (hs x (List.mem_cons_of_mem _ hx))
    have h2 := List.length_erase_of_mem (hs a List.mem_cons_self)
    have h3 := List.length_pos_of_mem (hs a List.mem_cons_self)
    simp only [List.length_cons]
    omega

/-- a sufficient check of `Enough` on given lists -/
def enoughCheck (decls : List (Str × Decl × Bool)) (qs : List Req) : Bool :=
  decls.all fun d =>
    match declLimit d.2.1 with
    | none => true
    | some n => decide (sizeMax ≤ n) ||
      (decide ((((qs.flatMap fun q => strConsts q.expr).filter fun c => c.1.map Char.toLower = d.1).map (·.2)).eraseDups.length ≤ n) &&
       decide ((((qs.flatMap fun q => enumConsts q.expr).filter fun c => c.1.map Char.toLower = d.1).map (·.2)).eraseDups.length ≤ n) &&
       qs.all fun q => (preds q.expr).all fun p => match predTexts p with | none => true | some (_, ts) => decide ts.Nodup)

theorem enough_of_check {decls : List (Str × Decl × Bool)} {qs : List Req} (h : enoughCheck decls qs = true) : Enough decls qs := by
  have key : ∀ a n, limitOf decls a = some n → n < sizeMax →
      (((qs.flatMap fun q => strConsts q.expr).filter fun c => c.1.map Char.toLower = a.map Char.toLower).map (·.2)).eraseDups.length ≤ n ∧
      (((qs.flatMap fun q => enumConsts q.expr).filter fun c => c.1.map Char.toLower = a.map Char.toLower).map (·.2)).eraseDups.length ≤ n ∧
      ∀ q ∈ qs, ∀ p ∈ preds q.expr, ∀ b ts, predTexts p = some (b, ts) → ts.Nodup := by
    intro a n hn hlt
    simp only [limitOf, Option.bind_eq_some_iff] at hn
    obtain ⟨d, h1, h2⟩ := hn
    have h3 := List.mem_of_find?_eq_some h1
    have h4 : d.1 = a.map Char.toLower := by simpa using List.find?_some h1
    have h5 := List.all_eq_true.1 h d h3
    simp only [h2, Bool.or_eq_true, Bool.and_eq_true, decide_eq_true_eq, h4] at h5
    rcases h5 with h5 | ⟨⟨h5, h6⟩, h7⟩
    · omega
    · refine ⟨h5, h6, fun q hq p hp b ts ht => ?_⟩
      have := List.all_eq_true.1 (List.all_eq_true.1 h7 q hq) p hp
      rw [ht] at this
      simpa using this
  constructor
  · intro a n h1 h2 l h3 h4
    refine Nat.le_trans (nodup_length_le h3 fun x hx => ?_) (key a n h1 h2).1
    obtain ⟨q, hq, c, hc, e1, e2⟩ := h4 x hx
    rw [List.mem_eraseDups, List.mem_map]
    exact ⟨c, List.mem_filter.2 ⟨List.mem_flatMap.2 ⟨q, hq, hc⟩, by simpa using e1⟩, e2⟩
  · intro a n h1 h2 l h3 h4
    refine Nat.le_trans (nodup_length_le h3 fun x hx => ?_) (key a n h1 h2).2.1
    obtain ⟨q, hq, c, hc, e1, e2⟩ := h4 x hx
    rw [List.mem_eraseDups, List.mem_map]
    exact ⟨c, List.mem_filter.2 ⟨List.mem_flatMap.2 ⟨q, hq, hc⟩, by simpa using e1⟩, e2⟩
  · intro q hq p hp a ts n h1 h2 h3
    exact (key a n h2 h3).2.2 q hq p hp a ts h1

def plainDecls : List (Str × Decl × Bool) :=
  [("i".toList, .int 0 10, false), ("b".toList, .bool, true), ("s".toList, .string 2, true), ("e".toList, .intEnum sizeMax, true),
   ("il".toList, .intList 0 20, true), ("now".toList, .int int64Min int64Max, false), ("fc".toList, .freq, true),
   ("seg".toList, .segments, true), ("f".toList, .float (-dblMax) dblMax, true), ("latitude".toList, .float (-dblMax) dblMax, true),
   ("longitude".toList, .float (-dblMax) dblMax, true)]

/-- eleven requests over every kind of attribute and function, into leaves of capacity 1; two of them have the two strings `s` has room for
and two have the one namespace `fc` has room for -/
def plainReqs : List Req :=
  [⟨1, [], exI .lt 3⟩, ⟨2, [], .and (exI .gt 7) (.not exB)⟩, ⟨3, [], .or (exS "a") (.leaf (.isNull .isNull ⟨"b".toList, 0⟩))⟩,
   ⟨4, [], .and (exE 77) (exI .ge 5)⟩, ⟨5, [], .and (exIL [3, 4]) (.or (exS "b") (exI .gt 2))⟩,
   ⟨6, [⟨"flight_id".toList, .int 3⟩], .and exCapPred (exI .gt 7)⟩, ⟨7, [], .or exSegPred (exI .lt 4)⟩,
   ⟨8, [], .and (.not exGeoPred) (exI .gt 2)⟩, ⟨9, [], .leaf (.compare .lt ⟨"f".toList, 0⟩ (.int 3))⟩,
   ⟨10, [], .and (exStrPred "s") (exI .lt 9)⟩, ⟨11, [⟨"flight_id".toList, .int 5⟩], exCapPred⟩]

/-- for the examples: the limits are binary fractions with few digits -/
local instance ordinaryFloats : Floats := coarseFloats fun _ => True

theorem plainDecls_ordinary : ∀ d ∈ plainDecls, OrdinaryDecl d := by
  intro d hd
  simp only [plainDecls, List.mem_cons, List.not_mem_nil, or_false] at hd
  rcases hd with rfl | rfl | rfl | rfl | rfl | rfl | rfl | rfl | rfl | rfl | rfl <;>
    refine ⟨?_, ?_, ?_, by decide⟩ <;> first
      | exact proper_float trivial (by decide +kernel) (.inl rfl) (.inl rfl)
      | (simp [ProperDecl, MidDecl, MidInt, PositiveDecl, sizeMax, int64Min, int64Max] <;> decide +kernel)

def plainDomains : List Domain := (makeTree 1 0 plainDecls).cfg.domains

/-- the float attributes have no limits -/
theorem plain_floatFree (e : Expr) : FloatFree plainDomains e := by
  intro n _ d hd hl hty
  have hd := List.mem_of_find?_eq_some hd
  have h : plainDomains = plainDecls.mapIdx declDomain := makeTree_domains 1 0 plainDecls
  rw [h] at hd
  simp only [plainDecls, List.mapIdx_cons, List.mapIdx_nil, List.mem_cons, List.not_mem_nil, or_false] at hd
  have hnot : ∀ x : Rat, ¬ ¬ closeTo x x := fun x h => h (closeTo_self x)
  rcases hd with rfl | rfl | rfl | rfl | rfl | rfl | rfl | rfl | rfl | rfl | rfl <;>
    first
      | exact hnot _ hl.high
      | exact absurd hty (by simp [declDomain, Decl.bound])

theorem plain_floatFit (e : Expr) : FloatFit plainDomains e := floatFree_fit (plain_floatFree e)

theorem plain_clear {ev : List EventVar} (h : WellTyped plainDomains ev) (q : Req) : Clear plainDomains ev q :=
  clear_of_floatFree (by decide +kernel) h (plain_floatFree _)

theorem plain_now : ¬ Optional plainDecls exNow.attr := by
  unfold Optional
  simp only [plainDecls, exNow, List.mem_cons, List.not_mem_nil, or_false, exists_eq_or_imp, exists_eq_left]
  decide

theorem plainReqs_ordinary : ∀ q ∈ plainReqs, Ordinary plainDecls plainDomains q := by
  have di : declaredType plainDomains ['i'] = some .int := by decide +kernel
  have db : declaredType plainDomains ['b'] = some .bool := by decide +kernel
  have ds : declaredType plainDomains ['s'] = some .string := by decide +kernel
  have de : declaredType plainDomains ['e'] = some .intEnum := by decide +kernel
  have dil : declaredType plainDomains ['i', 'l'] = some .intList := by decide +kernel
  have dn : declaredType plainDomains ['n', 'o', 'w'] = some .int := by decide +kernel
  have dfc : declaredType plainDomains ['f', 'c'] = some .freq := by decide +kernel
  have dsg : declaredType plainDomains ['s', 'e', 'g'] = some .segments := by decide +kernel
  have df : declaredType plainDomains ['f'] = some .float := by decide +kernel
  have dla : declaredType plainDomains ['l', 'a', 't', 'i', 't', 'u', 'd', 'e'] = some .float := by decide +kernel
  have dlo : declaredType plainDomains ['l', 'o', 'n', 'g', 'i', 't', 'u', 'd', 'e'] = some .float := by decide +kernel
  have nb : Nullable plainDomains ⟨['b'], 0⟩ := by
    unfold Nullable
    cases h : plainDomains.find? (fun d => d.attr.attr = (['b'] : Str).map Char.toLower) with
    | none => exact absurd h (by decide +kernel)
    | some d =>
      refine ⟨d, rfl, ?_⟩
      have : (plainDomains.find? (fun d => d.attr.attr = (['b'] : Str).map Char.toLower)).map Domain.allowUndefined = some true := by
        decide +kernel
      rw [h] at this
      simpa using this
  have hff := plain_floatFit
  have hnow := plain_now
  generalize plainDomains = D at *
  intro q hq
  simp only [plainReqs, List.mem_cons, List.not_mem_nil, or_false] at hq
  rcases hq with rfl | rfl | rfl | rfl | rfl | rfl | rfl | rfl | rfl | rfl | rfl <;>
    refine ⟨?_, ?_, ?_, hff _, ⟨?_, ?_, ?_, ?_⟩, ?_, ?_⟩ <;>
    simp [fitting_iff, exI, exB, exS, exE, exIL, exCapPred, exSegPred, exGeoPred, exStrPred, Accepts, AcceptsPred, Is, Known, Usable, UsablePred, Moderate,
      ModInt, int64Min, int64Max, SpecialTyped, SpecialTypedPred, caps, supplied, exNow, Expr.InRange, Pred.InRange, ConstantsInRange, Clocked, ShortSafe, BoundSafe,
      LowerStrs, strAttrs, predStrAttrs, di, db, ds, de, dil, dn, dfc, dsg, df, dla, dlo, nb] <;>
    first | exact hnow | exact ⟨_, rfl⟩

theorem plainReqs_enough : Enough plainDecls plainReqs := enough_of_check (by decide +kernel)

theorem typedEvent_plain : WellTyped plainDomains typedEvent := by
  intro v hv
  simp only [typedEvent, List.mem_cons, List.not_mem_nil, or_false] at hv
  rcases hv with rfl | rfl | rfl | rfl | rfl | rfl | rfl | rfl
  · exact ⟨.int, by decide +kernel, trivial⟩
  · exact ⟨.int, by decide +kernel, trivial⟩
  · exact ⟨.bool, by decide +kernel, trivial⟩
  · exact ⟨.string, by decide +kernel, trivial⟩
  · exact ⟨.freq, by decide +kernel, trivial⟩
  · exact ⟨.segments, by decide +kernel, trivial⟩
  · exact ⟨.float, by decide +kernel, trivial⟩
  · exact ⟨.float, by decide +kernel, trivial⟩

theorem typedEvent_inRange : EventInRange typedEvent := by
  intro v hv l hl
  simp only [typedEvent, List.mem_cons, List.not_mem_nil, or_false] at hv
  rcases hv with rfl | rfl | rfl | rfl | rfl | rfl | rfl | rfl <;> cases hl
  simp

/-- the theorem, applied: nothing is left to assume -/
example : ∃ w rep' ids, (World.init (makeTree 1 0 plainDecls)).run exactRounding (plainReqs.map Op.insert) = .ok w ∧
    w.tree.search exGeo typedEvent .empty = .ok (some rep') ∧ rep'.subs = ids ∧ ids.Nodup ∧
    ∀ id, id ∈ ids ↔ ∃ q ∈ plainReqs, q.id = id ∧ sat exGeo (constants q.consts) (eventOf typedEvent) q.expr := by
  obtain ⟨w, h, _, hall⟩ := C47_ordinary_use_correct exGeo exactRounding exactRounding_sane 1 0 plainDecls plainReqs (by decide)
    plainDecls_ordinary (by decide +kernel) (by decide +kernel) plainReqs_ordinary plainReqs_enough (by decide)
  obtain ⟨_, hall⟩ := hall typedEvent typedEvent_plain typedEvent_inRange (fun q _ => plain_clear typedEvent_plain q) .empty
  obtain ⟨rep', ids, h1, h2, h3, h4⟩ := hall (by
    intro d hd hm
    simp only [plainDecls, List.mem_cons, List.not_mem_nil, or_false] at hd
    rcases hd with rfl | rfl | rfl | rfl | rfl | rfl | rfl | rfl | rfl | rfl | rfl <;> first | (cases hm; done) | (simp [sets, typedEvent]; decide))
  exact ⟨w, rep', ids, h, h1, by rw [h2]; rfl, h3, h4⟩

/-- what that search reports -/
example : searchIds 1 plainDecls (plainReqs.map Op.insert) typedEvent = some [11, 7, 8, 10, 6] := by decide +kernel

/-- the same requests, inserted the other way round into a tree with four subscriptions to a leaf -/
example : ∃ w w', (World.init (makeTree 1 0 plainDecls)).run exactRounding (plainReqs.map Op.insert) = .ok w ∧
    (World.init (makeTree 4 0 plainDecls)).run exactRounding (plainReqs.reverse.map Op.insert) = .ok w' ∧
    ((w.tree.search exGeo typedEvent .empty = .ok none ∧ w'.tree.search exGeo typedEvent .empty = .ok none) ∨
      ∃ r r', w.tree.search exGeo typedEvent .empty = .ok (some r) ∧ w'.tree.search exGeo typedEvent .empty = .ok (some r') ∧
        r.subs.Nodup ∧ r.subs.Perm r'.subs) := by
  obtain ⟨w, w', h, h', _, _, hall⟩ := C04_ordinary_order_partial exGeo exactRounding exactRounding_sane 1 0 4 0 plainDecls plainReqs
    plainReqs.reverse (List.reverse_perm _).symm (by decide) (by decide) plainDecls_ordinary (by decide +kernel) (by decide +kernel)
    plainReqs_ordinary plainReqs_enough (by decide)
  exact ⟨w, w', h, h', hall typedEvent typedEvent_plain typedEvent_inRange (fun q _ => plain_clear typedEvent_plain q)⟩

/-- ... reports the same in another order -/
example : searchIds 4 plainDecls (plainReqs.reverse.map Op.insert) typedEvent = some [11, 10, 8, 7, 6] := by decide +kernel

/-- requests on the float attribute `f` with the limits 0 and 10, whose range is cut up at capacity 1, and on `g` without limits -/
def floatReqs : List Req :=
  [⟨1, [], exF .gt (1 / 2)⟩, ⟨2, [], .and (exF .le (3 / 4)) (exI .lt 5)⟩, ⟨3, [], exF .ge 9⟩, ⟨4, [], .and (exF .gt 3) (exF .lt 4)⟩,
   ⟨5, [], .or (exG .lt 100) (exF .lt 20)⟩, ⟨6, [], .and (exF .gt 3) (exF .lt (7 / 2))⟩, ⟨7, [], .and (exF .gt 3) (exF .lt 3)⟩]

/-- `f` is 3.5, `i` is 1 -/
def floatEvent : List EventVar := [⟨"f".toList, .float (7 / 2)⟩, ⟨"i".toList, .int 1⟩]

/-- the theorem, applied to requests on float attributes with limits -/
example : ∃ w rep' ids, (World.init (makeTree 1 0 keptDecls)).run exactRounding (floatReqs.map Op.insert) = .ok w ∧
    w.tree.search exGeo floatEvent .empty = .ok (some rep') ∧ rep'.subs = ids ∧ ids.Nodup ∧
    ∀ id, id ∈ ids ↔ ∃ q ∈ floatReqs, q.id = id ∧ sat exGeo (constants q.consts) (eventOf floatEvent) q.expr := by
  have hwt : WellTyped (makeTree 1 0 keptDecls).cfg.domains floatEvent := by
    intro v hv
    simp only [floatEvent, List.mem_cons, List.not_mem_nil, or_false] at hv
    rcases hv with rfl | rfl
    · exact ⟨.float, by decide +kernel, trivial⟩
    · exact ⟨.int, by decide +kernel, trivial⟩
  have hir : EventInRange floatEvent := by
    intro v hv l hl
    simp only [floatEvent, List.mem_cons, List.not_mem_nil, or_false] at hv
    rcases hv with rfl | rfl <;> cases hl
  have hdecls : ∀ d ∈ keptDecls, OrdinaryDecl d := by
    intro d hd
    simp only [keptDecls, List.mem_cons, List.not_mem_nil, or_false] at hd
    rcases hd with rfl | rfl | rfl
    · exact ⟨show (0 : Int) ≤ 10 by decide, by simp [MidDecl, MidInt], trivial, rfl⟩
    · exact ⟨⟨trivial, by decide, .inr (coarse_edge (coarse_of_check (by decide +kernel))), .inr (coarse_edge (coarse_of_check (by decide +kernel)))⟩, trivial, trivial, rfl⟩
    · exact ⟨proper_float trivial (by decide +kernel) (.inl rfl) (.inl rfl), trivial, trivial, rfl⟩
  have hgf : ∀ x, (eventOf floatEvent).get ⟨['f'], 0⟩ = some (.float x) → x = 7 / 2 := by
    intro x hx
    have : (eventOf floatEvent).get ⟨['f'], 0⟩ = some (.float (7 / 2)) := by decide +kernel
    rw [this] at hx; cases hx; rfl
  have hgg : ∀ x, (eventOf floatEvent).get ⟨['g'], 0⟩ ≠ some (.float x) := by
    intro x hx
    have : (eventOf floatEvent).get ⟨['g'], 0⟩ = none := by decide +kernel
    rw [this] at hx; cases hx
  have hgi : ∀ x, (eventOf floatEvent).get ⟨['i'], 0⟩ ≠ some (.float x) := by
    intro x hx
    have : (eventOf floatEvent).get ⟨['i'], 0⟩ = some (.int 1) := by decide +kernel
    rw [this] at hx; cases hx
  have hd : IsDouble (7 / 2) := isDouble_iff.2 (by decide +kernel)
  have sf : ∀ {L : Str → Prop} {op : CmpOp} {k : Rat}, (k = 7 / 2 ∨ dblEps ≤ (7 / 2 - k).abs) →
      Separated L (eventOf floatEvent) (.leaf (.compare op ⟨['f'], 0⟩ (.float k))) := by
    intro L op k hk _ x hx
    rw [hgf x hx]
    exact hk.imp Eq.symm fun h => ⟨hd, h⟩
  have sg : ∀ {L : Str → Prop} {op : CmpOp} {k : Rat}, Separated L (eventOf floatEvent) (.leaf (.compare op ⟨['g'], 0⟩ (.float k))) :=
    fun _ x hx => absurd hx (hgg x)
  have si : ∀ {L : Str → Prop} {op : CmpOp} {k : Int}, Separated L (eventOf floatEvent) (.leaf (.compare op ⟨['i'], 0⟩ (.int k))) :=
    fun _ x hx => absurd hx (hgi x)
  have hclear : ∀ q ∈ floatReqs, Clear (makeTree 1 0 keptDecls).cfg.domains floatEvent q := by
    intro q hq
    simp only [floatReqs, List.mem_cons, List.not_mem_nil, or_false] at hq
    rcases hq with rfl | rfl | rfl | rfl | rfl | rfl | rfl
    · exact sf (by decide +kernel)
    · exact ⟨sf (by decide +kernel), si⟩
    · exact sf (by decide +kernel)
    · exact ⟨sf (by decide +kernel), sf (by decide +kernel)⟩
    · exact ⟨sg, sf (by decide +kernel)⟩
    · exact ⟨sf (by decide +kernel), sf (by decide +kernel)⟩
    · exact ⟨sf (by decide +kernel), sf (by decide +kernel)⟩
  have hord : ∀ q ∈ floatReqs, Ordinary keptDecls (makeTree 1 0 keptDecls).cfg.domains q := by
    have di : declaredType (makeTree 1 0 keptDecls).cfg.domains ['i'] = some .int := by decide +kernel
    have df : declaredType (makeTree 1 0 keptDecls).cfg.domains ['f'] = some .float := by decide +kernel
    have dg : declaredType (makeTree 1 0 keptDecls).cfg.domains ['g'] = some .float := by decide +kernel
    have kf : ∀ {e : Expr}, (∀ n ∈ exprNames e, n = ['i'] ∨ n = ['f'] ∨ n = ['g']) → FloatFit (makeTree 1 0 keptDecls).cfg.domains e :=
      kept_floatFit
    generalize (makeTree 1 0 keptDecls).cfg.domains = D at *
    intro q hq
    simp only [floatReqs, List.mem_cons, List.not_mem_nil, or_false] at hq
    rcases hq with rfl | rfl | rfl | rfl | rfl | rfl | rfl <;>
      refine ⟨?_, ?_, ?_, kf (by decide), ⟨?_, ?_, ?_, ?_⟩, ?_, ?_⟩ <;>
      simp [fitting_iff, exI, exF, exG, Accepts, AcceptsPred, Is, Usable, UsablePred, Moderate,
        ModInt, int64Min, int64Max, SpecialTyped, SpecialTypedPred, caps, Expr.InRange, Pred.InRange, ConstantsInRange, Clocked, ShortSafe,
        BoundSafe, LowerStrs, strAttrs, predStrAttrs, di, df, dg]
  obtain ⟨w, h, _, hall⟩ := C47_ordinary_use_correct exGeo exactRounding exactRounding_sane 1 0 keptDecls floatReqs (by decide)
    hdecls (by decide +kernel) (by decide +kernel) hord (enough_of_check (by decide +kernel)) (by decide)
  obtain ⟨_, hall⟩ := hall floatEvent hwt hir hclear .empty
  obtain ⟨rep', ids, h1, h2, h3, h4⟩ := hall (by
    intro d hd hm
    simp only [keptDecls, List.mem_cons, List.not_mem_nil, or_false] at hd
    rcases hd with rfl | rfl | rfl <;> cases hm)
  exact ⟨w, rep', ids, h, h1, by rw [h2]; rfl, h3, h4⟩

/-- what that search reports: 1 (`f > 0.5`), 4 (`f > 3 and f < 4`), 5 (`g < 100 or f < 20`) -/
example : searchIds 1 keptDecls (floatReqs.map Op.insert) floatEvent = some [1, 5, 4] := by decide +kernel

/-- the same from texts -/
def plainTexts : List TextReq := [textReq 1 "i < 3", textReq 2 "not (i > 9)", textReq 3 "s = 'a'"]
def plainTextReqs : List Req := [⟨1, [], tI .lt 3⟩, ⟨2, [], .not (tI .gt 9)⟩, ⟨3, [], tS "a"⟩]

theorem plainTexts_say : List.Forall₂ ReqSays plainTexts plainTextReqs := by
  have h1 : Says "i < 3".toList (tI .lt 3) := by
    obtain ⟨e, he, _⟩ := parseText_reads text_one_parsed
    rw [← text_one he]; exact he
  have h2 : Says "not (i > 9)".toList (.not (tI .gt 9)) := by
    obtain ⟨e, he, _⟩ := parseText_reads text_two_parsed
    rw [← text_two he]; exact he
  have h3 : Says "s = 'a'".toList (tS "a") := by
    obtain ⟨e, he, _⟩ := parseText_reads text_three_parsed
    rw [← text_three he]; exact he
  exact .cons ⟨rfl, rfl, h1⟩ (.cons ⟨rfl, rfl, h2⟩ (.cons ⟨rfl, rfl, h3⟩ .nil))

theorem plainTextReqs_ordinary : ∀ q ∈ plainTextReqs, Ordinary plainDecls plainDomains q := by
  have di : declaredType plainDomains ['i'] = some .int := by decide +kernel
  have ds : declaredType plainDomains ['s'] = some .string := by decide +kernel
  have hff := plain_floatFit
  generalize plainDomains = D at *
  intro q hq
  simp only [plainTextReqs, List.mem_cons, List.not_mem_nil, or_false] at hq
  rcases hq with rfl | rfl | rfl <;>
    refine ⟨?_, ?_, ?_, hff _, ⟨?_, ?_, ?_, ?_⟩, ?_, ?_⟩ <;>
    simp [fitting_iff, tI, tS, named, quoted, Accepts, AcceptsPred, Is, Usable, UsablePred, Moderate,
      ModInt, int64Min, int64Max, SpecialTyped, SpecialTypedPred, caps, Expr.InRange, Pred.InRange, ConstantsInRange, Clocked, ShortSafe,
      BoundSafe, LowerStrs, strAttrs, predStrAttrs, di, ds]

def plainText : Str := "{\"i\": 7, \"now\": 1, 's': \"a\"}".toList
def plainTextVars : List EventVar := [⟨"i".toList, .int 7⟩, ⟨"now".toList, .int 1⟩, ⟨"s".toList, .string (quoted "a".toList)⟩]

theorem plainText_parsed : parseEventText plainText = .ok (some plainTextVars) := by decide +kernel

theorem plainText_says : SaysEvent plainText plainTextVars := by
  rcases eventFromString_says plainText with ⟨hn, he⟩ | ⟨ev', hev, he⟩
  · rw [eventFromString, plainText_parsed] at he; cases he
  · rw [eventFromString, plainText_parsed] at he
    cases he
    exact hev

/-- all hypotheses are met: the texts report 2 and 3 -/
example : ∃ w rep' ids, (TextWorld.init (makeTree 1 0 plainDecls)).run exactRounding (plainTexts.map TextOp.insert) = .ok w ∧
    w.tree.searchText exGeo plainText .empty = .ok (some rep') ∧ rep'.subs = ids ∧ ids.Nodup ∧
    ∀ id, id ∈ ids ↔ ∃ q ∈ plainTexts, q.id = id ∧ ∃ e, Says q.text e ∧ sat exGeo (constants q.consts) (eventOf plainTextVars) e := by
  obtain ⟨w, h, _, hall⟩ := C47_ordinary_texts_correct exGeo exactRounding exactRounding_sane 1 0 plainDecls plainTexts plainTextReqs
    plainTexts_say (by decide) (by decide) plainDecls_ordinary (by decide +kernel) (by decide +kernel) plainTextReqs_ordinary
    (enough_of_check (by decide +kernel)) (by decide)
  have hwt : WellTyped plainDomains plainTextVars := by
    intro v hv
    simp only [plainTextVars, List.mem_cons, List.not_mem_nil, or_false] at hv
    rcases hv with rfl | rfl | rfl
    · exact ⟨.int, by decide +kernel, trivial⟩
    · exact ⟨.int, by decide +kernel, trivial⟩
    · exact ⟨.string, by decide +kernel, trivial⟩
  have hir : EventInRange plainTextVars := by
    intro v hv l hl
    simp only [plainTextVars, List.mem_cons, List.not_mem_nil, or_false] at hv
    rcases hv with rfl | rfl | rfl <;> cases hl
  obtain ⟨_, hall⟩ := hall plainText plainTextVars plainText_says hwt hir (fun q _ => plain_clear hwt q) .empty
  obtain ⟨rep', ids, h1, h2, h3, h4⟩ := hall (by
    intro d hd hm
    simp only [plainDecls, List.mem_cons, List.not_mem_nil, or_false] at hd
    rcases hd with rfl | rfl | rfl | rfl | rfl | rfl | rfl | rfl | rfl | rfl | rfl <;>
      first | (cases hm; done) | (simp [sets, plainTextVars]; decide))
  exact ⟨w, rep', ids, h, h1, by rw [h2]; rfl, h3, h4⟩

/-! ### the limit of a frequency-cap attribute -/

def nsCap (ns : String) : Expr := .leaf (.freq ⟨⟨"fc".toList, 0⟩, .flight, ⟨ns.toList, 0, 0⟩, 4, 0, exNow, 0⟩)

/-- Frequency-cap attributes have room for one namespace.  A second one inserted by `betree_insert` gets no id and is then taken to be
every namespace that has none: request 2 is true on the event, whose only cap is for another namespace, but is not reported. -/
theorem C03_second_namespace_missed :
    searchIds 3 [("fc".toList, .freq, true), ("now".toList, .int int64Min int64Max, false)]
      [.insert ⟨1, [⟨"flight_id".toList, .int 3⟩], nsCap "a"⟩, .insert ⟨2, [⟨"flight_id".toList, .int 3⟩], nsCap "b"⟩]
      [⟨"fc".toList, .freq [⟨.flight, 3, ⟨"c".toList, 0, 0⟩, true, 90, 9⟩]⟩, ⟨"now".toList, .int 100⟩] = some [1] ∧
    sat exGeo (constants [⟨"flight_id".toList, .int 3⟩])
      (eventOf [⟨"fc".toList, .freq [⟨.flight, 3, ⟨"c".toList, 0, 0⟩, true, 90, 9⟩]⟩, ⟨"now".toList, .int 100⟩]) (nsCap "b") := by
  refine ⟨by decide +kernel, ?_⟩
  refine ⟨_, rfl, .inr ⟨100, 3, by decide +kernel, by decide +kernel, ?_⟩⟩
  exact trivial

end BeTree
