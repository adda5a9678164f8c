import Verif.Lemmas.XxCert
import Verif.Model.Parser
import Verif.Spec.Syntax
/-
What the expression parser accepts is in the grammar: the predicate `XM` describes, for every symbol, the tokens read and the value built,
and every rule keeps it.
-/
namespace BeTree

theorem capType_of (s : Str) : CapType s (freqTypeOf s) := by
  unfold freqTypeOf
  repeat' split
  all_goals first | (subst_vars; exact Or.inl rfl) | skip
  refine Or.inr ⟨rfl, ?_⟩
  intro t ht
  cases t <;> simp [capTypeName] at ht <;> simp_all

theorem atomOf {ts ts' a} (h : ReadsAtom ts a) (e : ts = ts') : ReadsAtom ts' a := e ▸ h

theorem reads_mono {l d d' ts e} (hd : d ≤ d') (h : Reads l d ts e) : Reads l d' ts e := by
  induction h generalizing d' with
  | atom d h => exact .atom _ h
  | paren h ih =>
    obtain ⟨k, rfl⟩ : ∃ k, d' = k + 1 := ⟨d' - 1, by omega⟩
    exact .paren (ih (by omega))
  | not h ih =>
    obtain ⟨k, rfl⟩ : ∃ k, d' = k + 1 := ⟨d' - 1, by omega⟩
    exact .not (ih (by omega))
  | one h ih => exact .one (ih hd)
  | and h1 h2 ih1 ih2 => exact .and (ih1 hd) (ih2 hd)
  | only h ih => exact .only (ih hd)
  | or h1 h2 ih1 ih2 => exact .or (ih1 hd) (ih2 hd)

theorem reads_or {l d ts e} (h : Reads l d ts e) : Reads .or d ts e := by
  cases l
  · exact .only (.one h)
  · exact .only h
  · exact h

theorem reads_and {l d ts e} (h : Reads l d ts e) (hl : l ≠ .or) : Reads .and d ts e := by
  cases l
  · exact .one h
  · exact h
  · exact absurd rfl hl

/-- an expression after state `p` and before token `la`: after `not` (state 3) and `and` (state 62) it is unary, after `or` (state 63) and
before `and` (token 18) it is not a disjunction -/
def ExprM (p la : Nat) (ts : List Tok) (v : PVal) : Prop :=
  ∃ l d e, Reads l d ts e ∧ v = .node (parseBuild e) ∧ (p = 3 ∨ p = 62 → l = .unary) ∧ (p = 63 → l ≠ .or) ∧ (la = 18 → l ≠ .or)

/-- what each symbol stands for -/
def XM (p X : Nat) (ts : List Tok) (la : Nat) (v : PVal) : Prop :=
  match X with
  | 0 => ts = [] ∧ v = .token
  | 38 => ∃ d e, Reads .or d ts e ∧ v = .node (parseBuild e)
  | 39 => ∃ x, ts = [.ident x] ∧ v = .string x
  | 40 => ∃ n, ReadsInt ts n ∧ v = .int n
  | 41 => ∃ n, ReadsFloat ts n ∧ v = .float n
  | 42 => ∃ s, ts = [.string s] ∧ v = .strVal (quoted s)
  | 43 => ∃ u l, ReadsInts u l ∧ ts = .lparen :: u ++ [.rparen] ∧ v = .ints l
  | 44 => ∃ l, ReadsInts ts l ∧ v = .ints l
  | 45 => ∃ u l, ReadsStrs u l ∧ ts = .lparen :: u ++ [.rparen] ∧ v = .strs l
  | 46 => ∃ l, ReadsStrs ts l ∧ v = .strs l
  | 47 => ExprM p la ts v
  | 59 => ExprM p la ts v
  | 49 => ∃ c, ReadsNum ts c ∧ v = .cmp c
  | 51 => ∃ c, ReadsConst ts c ∧ v = .eq c
  | 53 => ∃ x, ts = [.ident x] ∧ v = .var (named x)
  | 54 => ∃ c, ReadsLeft ts c ∧ v = .setLeft c
  | 55 => ∃ c, ReadsRight ts c ∧ v = .setRight c
  | 57 => ∃ c, ReadsList ts c ∧ v = .list c
  | 48 => ∃ a, ReadsAtom ts a ∧ v = .node (.leaf a)
  | 50 => ∃ a, ReadsAtom ts a ∧ v = .node (.leaf a)
  | 52 => ∃ a, ReadsAtom ts a ∧ v = .node (.leaf a)
  | 56 => ∃ a, ReadsAtom ts a ∧ v = .node (.leaf a)
  | 58 => ∃ a, ReadsAtom ts a ∧ v = .node (.leaf a)
  | 60 => ∃ a, ReadsAtom ts a ∧ v = .node (.leaf a)
  | 61 => ∃ a, ReadsAtom ts a ∧ v = .node (.leaf a)
  | 62 => ∃ a, ReadsAtom ts a ∧ v = .node (.leaf a)
  | 63 => ∃ a, ReadsAtom ts a ∧ v = .node (.leaf a)
  | 64 => ∃ a, ReadsAtom ts a ∧ v = .node (.leaf a)
  | X => ∃ k : Tok, ts = [k] ∧ k.num = X ∧ v = k.val

set_option maxRecDepth 100000 in
theorem xx_state_of_sym : ∀ s < 168, (xxCert.sym s = 20 → s = 3) ∧ (xxCert.sym s = 18 → s = 62) ∧ (xxCert.sym s = 19 → s = 63) ∧
    (xxCert.sym s = 0 → s = 49) := by
  decide +kernel

theorem xx_sym_ge {s : Nat} (h : ¬ s < 168) : xxCert.sym s = 1000 := by
  have : xxCert.stos.length = 168 := by decide +kernel
  simp only [LRCert.sym, List.getD_eq_getElem?_getD]
  rw [List.getElem?_eq_none (by omega)]
  rfl

theorem xx_after_not {s : Nat} (h : xxCert.sym s = 20) : s = 3 := by
  by_cases hs : s < 168
  · exact (xx_state_of_sym s hs).1 h
  · rw [xx_sym_ge hs] at h; cases h
theorem xx_after_and {s : Nat} (h : xxCert.sym s = 18) : s = 62 := by
  by_cases hs : s < 168
  · exact (xx_state_of_sym s hs).2.1 h
  · rw [xx_sym_ge hs] at h; cases h
theorem xx_after_or {s : Nat} (h : xxCert.sym s = 19) : s = 63 := by
  by_cases hs : s < 168
  · exact (xx_state_of_sym s hs).2.2.1 h
  · rw [xx_sym_ge hs] at h; cases h
theorem xx_after_eof {s : Nat} (h : xxCert.sym s = 0) : s = 49 := by
  by_cases hs : s < 168
  · exact (xx_state_of_sym s hs).2.2.2 h
  · rw [xx_sym_ge hs] at h; cases h

theorem xx_left_and : ∀ s ∈ xxCert.pre.getD 62 [], ∀ p ∈ xxCert.pre.getD s [], p = 0 ∨ p = 2 ∨ p = 63 := by decide +kernel
theorem xx_left_or : ∀ s ∈ xxCert.pre.getD 63 [], ∀ p ∈ xxCert.pre.getD s [], p = 0 ∨ p = 2 := by decide +kernel
set_option maxRecDepth 100000 in
theorem xx_after_or_expr : ∀ q < 168, xxCert.sym q = 47 → 63 ∈ xxCert.pre.getD q [] → q = 102 := by decide +kernel
theorem xx_or_la {q la : Nat} (he : xxCert.edge 63 q) (hs : xxCert.sym q = 47) (h : xxTables.act q la = .reduce 58) : la ≠ 18 := by
  have hq : q = 102 := by
    by_cases hq : q < 168
    · exact xx_after_or_expr q hq hs he
    · rw [xx_sym_ge hq] at hs; cases hs
  rintro rfl
  rw [hq] at h
  have : xxTables.act 102 18 = .shift 62 := by decide +kernel
  rw [this] at h
  cases h

theorem xx_rule2 {p q la : Nat} {ts : List Tok} {us : List PVal} (hc : Chain Tok.num xxCert XM p [47] ts la us q) :
    ∃ v, xxAction 2 us = .ok v ∧ XM p 38 ts la v := by
  obtain ⟨v0, w0, t0, r0, q0, rfl, rfl, m0, e0, y0, rfl, rfl, rfl⟩ := hc
  obtain ⟨l0, d0, o0, h0, rfl, a0, b0, c0⟩ := m0
  exact ⟨_, rfl, d0, o0, by simpa using reads_or h0, rfl⟩

theorem xx_rule3 {p q la : Nat} {ts : List Tok} {us : List PVal} (hc : Chain Tok.num xxCert XM p [34] ts la us q) :
    ∃ v, xxAction 3 us = .ok v ∧ XM p 39 ts la v := by
  obtain ⟨v0, w0, t0, r0, q0, rfl, rfl, m0, e0, y0, rfl, rfl, rfl⟩ := hc
  obtain ⟨k0, rfl, z0, rfl⟩ : ∃ k, t0 = [k] ∧ Tok.num k = 34 ∧ v0 = k.val := m0
  obtain ⟨x0, rfl⟩ : ∃ x, k0 = .ident x := by cases k0 <;> simp [Tok.num] at z0 ⊢
  exact ⟨_, rfl, _, rfl, rfl⟩

theorem xx_rule4 {p q la : Nat} {ts : List Tok} {us : List PVal} (hc : Chain Tok.num xxCert XM p [35] ts la us q) :
    ∃ v, xxAction 4 us = .ok v ∧ XM p 40 ts la v := by
  obtain ⟨v0, w0, t0, r0, q0, rfl, rfl, m0, e0, y0, rfl, rfl, rfl⟩ := hc
  obtain ⟨k0, rfl, z0, rfl⟩ : ∃ k, t0 = [k] ∧ Tok.num k = 35 ∧ v0 = k.val := m0
  obtain ⟨x0, rfl⟩ : ∃ x, k0 = .int x := by cases k0 <;> simp [Tok.num] at z0 ⊢
  exact ⟨_, rfl, _, ReadsInt.pos _, rfl⟩

theorem xx_rule5 {p q la : Nat} {ts : List Tok} {us : List PVal} (hc : Chain Tok.num xxCert XM p [3, 35] ts la us q) :
    ∃ v, xxAction 5 us = .ok v ∧ XM p 40 ts la v := by
  obtain ⟨v0, w0, t0, r0, q0, rfl, rfl, m0, e0, y0, v1, w1, t1, r1, q1, rfl, rfl, m1, e1, y1, rfl, rfl, rfl⟩ := hc
  obtain ⟨k0, rfl, z0, rfl⟩ : ∃ k, t0 = [k] ∧ Tok.num k = 3 ∧ v0 = k.val := m0
  obtain rfl : k0 = .minus := by cases k0 <;> simp [Tok.num] at z0 ⊢
  obtain ⟨k1, rfl, z1, rfl⟩ : ∃ k, t1 = [k] ∧ Tok.num k = 35 ∧ v1 = k.val := m1
  obtain ⟨x1, rfl⟩ : ∃ x, k1 = .int x := by cases k1 <;> simp [Tok.num] at z1 ⊢
  exact ⟨_, rfl, _, ReadsInt.neg _, rfl⟩

theorem xx_rule6 {p q la : Nat} {ts : List Tok} {us : List PVal} (hc : Chain Tok.num xxCert XM p [36] ts la us q) :
    ∃ v, xxAction 6 us = .ok v ∧ XM p 41 ts la v := by
  obtain ⟨v0, w0, t0, r0, q0, rfl, rfl, m0, e0, y0, rfl, rfl, rfl⟩ := hc
  obtain ⟨k0, rfl, z0, rfl⟩ : ∃ k, t0 = [k] ∧ Tok.num k = 36 ∧ v0 = k.val := m0
  obtain ⟨x0, rfl⟩ : ∃ x, k0 = .float x := by cases k0 <;> simp [Tok.num] at z0 ⊢
  exact ⟨_, rfl, _, ReadsFloat.pos _, rfl⟩

theorem xx_rule7 {p q la : Nat} {ts : List Tok} {us : List PVal} (hc : Chain Tok.num xxCert XM p [3, 36] ts la us q) :
    ∃ v, xxAction 7 us = .ok v ∧ XM p 41 ts la v := by
  obtain ⟨v0, w0, t0, r0, q0, rfl, rfl, m0, e0, y0, v1, w1, t1, r1, q1, rfl, rfl, m1, e1, y1, rfl, rfl, rfl⟩ := hc
  obtain ⟨k0, rfl, z0, rfl⟩ : ∃ k, t0 = [k] ∧ Tok.num k = 3 ∧ v0 = k.val := m0
  obtain rfl : k0 = .minus := by cases k0 <;> simp [Tok.num] at z0 ⊢
  obtain ⟨k1, rfl, z1, rfl⟩ : ∃ k, t1 = [k] ∧ Tok.num k = 36 ∧ v1 = k.val := m1
  obtain ⟨x1, rfl⟩ : ∃ x, k1 = .float x := by cases k1 <;> simp [Tok.num] at z1 ⊢
  exact ⟨_, rfl, _, ReadsFloat.neg _, rfl⟩

theorem xx_rule8 {p q la : Nat} {ts : List Tok} {us : List PVal} (hc : Chain Tok.num xxCert XM p [33] ts la us q) :
    ∃ v, xxAction 8 us = .ok v ∧ XM p 42 ts la v := by
  obtain ⟨v0, w0, t0, r0, q0, rfl, rfl, m0, e0, y0, rfl, rfl, rfl⟩ := hc
  obtain ⟨k0, rfl, z0, rfl⟩ : ∃ k, t0 = [k] ∧ Tok.num k = 33 ∧ v0 = k.val := m0
  obtain ⟨x0, rfl⟩ : ∃ x, k0 = .string x := by cases k0 <;> simp [Tok.num] at z0 ⊢
  exact ⟨_, rfl, _, rfl, rfl⟩

theorem xx_rule9 {p q la : Nat} {ts : List Tok} {us : List PVal} (hc : Chain Tok.num xxCert XM p [10, 44, 11] ts la us q) :
    ∃ v, xxAction 9 us = .ok v ∧ XM p 43 ts la v := by
  obtain ⟨v0, w0, t0, r0, q0, rfl, rfl, m0, e0, y0, v1, w1, t1, r1, q1, rfl, rfl, m1, e1, y1, v2, w2, t2, r2, q2, rfl, rfl, m2, e2, y2, rfl, rfl, rfl⟩ := hc
  obtain ⟨k0, rfl, z0, rfl⟩ : ∃ k, t0 = [k] ∧ Tok.num k = 10 ∧ v0 = k.val := m0
  obtain rfl : k0 = .lparen := by cases k0 <;> simp [Tok.num] at z0 ⊢
  obtain ⟨n1, h1, rfl⟩ : ∃ l, ReadsInts t1 l ∧ v1 = PVal.ints l := m1
  obtain ⟨k2, rfl, z2, rfl⟩ : ∃ k, t2 = [k] ∧ Tok.num k = 11 ∧ v2 = k.val := m2
  obtain rfl : k2 = .rparen := by cases k2 <;> simp [Tok.num] at z2 ⊢
  exact ⟨_, rfl, _, _, h1, by simp, rfl⟩

theorem xx_rule10 {p q la : Nat} {ts : List Tok} {us : List PVal} (hc : Chain Tok.num xxCert XM p [40] ts la us q) :
    ∃ v, xxAction 10 us = .ok v ∧ XM p 44 ts la v := by
  obtain ⟨v0, w0, t0, r0, q0, rfl, rfl, m0, e0, y0, rfl, rfl, rfl⟩ := hc
  obtain ⟨n0, h0, rfl⟩ : ∃ n, ReadsInt t0 n ∧ v0 = PVal.int n := m0
  exact ⟨_, rfl, _, by simpa using ReadsInts.one h0, rfl⟩

theorem xx_rule11 {p q la : Nat} {ts : List Tok} {us : List PVal} (hc : Chain Tok.num xxCert XM p [44, 12, 40] ts la us q) :
    ∃ v, xxAction 11 us = .ok v ∧ XM p 44 ts la v := by
  obtain ⟨v0, w0, t0, r0, q0, rfl, rfl, m0, e0, y0, v1, w1, t1, r1, q1, rfl, rfl, m1, e1, y1, v2, w2, t2, r2, q2, rfl, rfl, m2, e2, y2, rfl, rfl, rfl⟩ := hc
  obtain ⟨n0, h0, rfl⟩ : ∃ l, ReadsInts t0 l ∧ v0 = PVal.ints l := m0
  obtain ⟨k1, rfl, z1, rfl⟩ : ∃ k, t1 = [k] ∧ Tok.num k = 12 ∧ v1 = k.val := m1
  obtain rfl : k1 = .comma := by cases k1 <;> simp [Tok.num] at z1 ⊢
  obtain ⟨n2, h2, rfl⟩ : ∃ n, ReadsInt t2 n ∧ v2 = PVal.int n := m2
  exact ⟨_, rfl, _, by simpa using ReadsInts.more h0 h2, rfl⟩

theorem xx_rule12 {p q la : Nat} {ts : List Tok} {us : List PVal} (hc : Chain Tok.num xxCert XM p [10, 46, 11] ts la us q) :
    ∃ v, xxAction 12 us = .ok v ∧ XM p 45 ts la v := by
  obtain ⟨v0, w0, t0, r0, q0, rfl, rfl, m0, e0, y0, v1, w1, t1, r1, q1, rfl, rfl, m1, e1, y1, v2, w2, t2, r2, q2, rfl, rfl, m2, e2, y2, rfl, rfl, rfl⟩ := hc
  obtain ⟨k0, rfl, z0, rfl⟩ : ∃ k, t0 = [k] ∧ Tok.num k = 10 ∧ v0 = k.val := m0
  obtain rfl : k0 = .lparen := by cases k0 <;> simp [Tok.num] at z0 ⊢
  obtain ⟨n1, h1, rfl⟩ : ∃ l, ReadsStrs t1 l ∧ v1 = PVal.strs l := m1
  obtain ⟨k2, rfl, z2, rfl⟩ : ∃ k, t2 = [k] ∧ Tok.num k = 11 ∧ v2 = k.val := m2
  obtain rfl : k2 = .rparen := by cases k2 <;> simp [Tok.num] at z2 ⊢
  exact ⟨_, rfl, _, _, h1, by simp, rfl⟩

theorem xx_rule13 {p q la : Nat} {ts : List Tok} {us : List PVal} (hc : Chain Tok.num xxCert XM p [42] ts la us q) :
    ∃ v, xxAction 13 us = .ok v ∧ XM p 46 ts la v := by
  obtain ⟨v0, w0, t0, r0, q0, rfl, rfl, m0, e0, y0, rfl, rfl, rfl⟩ := hc
  obtain ⟨s0, rfl, rfl⟩ : ∃ s, t0 = [Tok.string s] ∧ v0 = PVal.strVal (quoted s) := m0
  exact ⟨_, rfl, _, ReadsStrs.one _, rfl⟩

theorem xx_rule14 {p q la : Nat} {ts : List Tok} {us : List PVal} (hc : Chain Tok.num xxCert XM p [46, 12, 42] ts la us q) :
    ∃ v, xxAction 14 us = .ok v ∧ XM p 46 ts la v := by
  obtain ⟨v0, w0, t0, r0, q0, rfl, rfl, m0, e0, y0, v1, w1, t1, r1, q1, rfl, rfl, m1, e1, y1, v2, w2, t2, r2, q2, rfl, rfl, m2, e2, y2, rfl, rfl, rfl⟩ := hc
  obtain ⟨n0, h0, rfl⟩ : ∃ l, ReadsStrs t0 l ∧ v0 = PVal.strs l := m0
  obtain ⟨k1, rfl, z1, rfl⟩ : ∃ k, t1 = [k] ∧ Tok.num k = 12 ∧ v1 = k.val := m1
  obtain rfl : k1 = .comma := by cases k1 <;> simp [Tok.num] at z1 ⊢
  obtain ⟨s2, rfl, rfl⟩ : ∃ s, t2 = [Tok.string s] ∧ v2 = PVal.strVal (quoted s) := m2
  exact ⟨_, rfl, _, by simpa using ReadsStrs.more _ h0, rfl⟩

theorem xx_rule15 {p q la : Nat} {ts : List Tok} {us : List PVal} (hc : Chain Tok.num xxCert XM p [10, 47, 11] ts la us q) :
    ∃ v, xxAction 15 us = .ok v ∧ XM p 47 ts la v := by
  obtain ⟨v0, w0, t0, r0, q0, rfl, rfl, m0, e0, y0, v1, w1, t1, r1, q1, rfl, rfl, m1, e1, y1, v2, w2, t2, r2, q2, rfl, rfl, m2, e2, y2, rfl, rfl, rfl⟩ := hc
  obtain ⟨k0, rfl, z0, rfl⟩ : ∃ k, t0 = [k] ∧ Tok.num k = 10 ∧ v0 = k.val := m0
  obtain rfl : k0 = .lparen := by cases k0 <;> simp [Tok.num] at z0 ⊢
  obtain ⟨l1, d1, o1, h1, rfl, a1, b1, c1⟩ := m1
  obtain ⟨k2, rfl, z2, rfl⟩ : ∃ k, t2 = [k] ∧ Tok.num k = 11 ∧ v2 = k.val := m2
  obtain rfl : k2 = .rparen := by cases k2 <;> simp [Tok.num] at z2 ⊢
  exact ⟨_, rfl, .unary, d1 + 1, o1, by simpa using Reads.paren (reads_or h1), rfl, fun _ => rfl, fun _ => nofun, fun _ => nofun⟩

theorem xx_rule16 {p q la : Nat} {ts : List Tok} {us : List PVal} (hc : Chain Tok.num xxCert XM p [50] ts la us q) :
    ∃ v, xxAction 16 us = .ok v ∧ XM p 47 ts la v := by
  obtain ⟨v0, w0, t0, r0, q0, rfl, rfl, m0, e0, y0, rfl, rfl, rfl⟩ := hc
  obtain ⟨n0, h0, rfl⟩ : ∃ a, ReadsAtom t0 a ∧ v0 = PVal.node (.leaf a) := m0
  exact ⟨_, rfl, .unary, 0, _, by simpa using Reads.atom 0 h0, rfl, fun _ => rfl, fun _ => nofun, fun _ => nofun⟩

theorem xx_rule17 {p q la : Nat} {ts : List Tok} {us : List PVal} (hc : Chain Tok.num xxCert XM p [52] ts la us q) :
    ∃ v, xxAction 17 us = .ok v ∧ XM p 47 ts la v := by
  obtain ⟨v0, w0, t0, r0, q0, rfl, rfl, m0, e0, y0, rfl, rfl, rfl⟩ := hc
  obtain ⟨n0, h0, rfl⟩ : ∃ a, ReadsAtom t0 a ∧ v0 = PVal.node (.leaf a) := m0
  exact ⟨_, rfl, .unary, 0, _, by simpa using Reads.atom 0 h0, rfl, fun _ => rfl, fun _ => nofun, fun _ => nofun⟩

theorem xx_rule18 {p q la : Nat} {ts : List Tok} {us : List PVal} (hc : Chain Tok.num xxCert XM p [56] ts la us q) :
    ∃ v, xxAction 18 us = .ok v ∧ XM p 47 ts la v := by
  obtain ⟨v0, w0, t0, r0, q0, rfl, rfl, m0, e0, y0, rfl, rfl, rfl⟩ := hc
  obtain ⟨n0, h0, rfl⟩ : ∃ a, ReadsAtom t0 a ∧ v0 = PVal.node (.leaf a) := m0
  exact ⟨_, rfl, .unary, 0, _, by simpa using Reads.atom 0 h0, rfl, fun _ => rfl, fun _ => nofun, fun _ => nofun⟩

theorem xx_rule19 {p q la : Nat} {ts : List Tok} {us : List PVal} (hc : Chain Tok.num xxCert XM p [58] ts la us q) :
    ∃ v, xxAction 19 us = .ok v ∧ XM p 47 ts la v := by
  obtain ⟨v0, w0, t0, r0, q0, rfl, rfl, m0, e0, y0, rfl, rfl, rfl⟩ := hc
  obtain ⟨n0, h0, rfl⟩ : ∃ a, ReadsAtom t0 a ∧ v0 = PVal.node (.leaf a) := m0
  exact ⟨_, rfl, .unary, 0, _, by simpa using Reads.atom 0 h0, rfl, fun _ => rfl, fun _ => nofun, fun _ => nofun⟩

theorem xx_rule20 {p q la : Nat} {ts : List Tok} {us : List PVal} (hc : Chain Tok.num xxCert XM p [59] ts la us q) :
    ∃ v, xxAction 20 us = .ok v ∧ XM p 47 ts la v := by
  obtain ⟨v0, w0, t0, r0, q0, rfl, rfl, m0, e0, y0, rfl, rfl, rfl⟩ := hc
  obtain ⟨l0, d0, o0, h0, rfl, a0, b0, c0⟩ := m0
  exact ⟨_, rfl, l0, d0, o0, by simpa using h0, rfl, a0, b0, c0⟩

theorem xx_rule21 {p q la : Nat} {ts : List Tok} {us : List PVal} (hc : Chain Tok.num xxCert XM p [60] ts la us q) :
    ∃ v, xxAction 21 us = .ok v ∧ XM p 47 ts la v := by
  obtain ⟨v0, w0, t0, r0, q0, rfl, rfl, m0, e0, y0, rfl, rfl, rfl⟩ := hc
  obtain ⟨n0, h0, rfl⟩ : ∃ a, ReadsAtom t0 a ∧ v0 = PVal.node (.leaf a) := m0
  exact ⟨_, rfl, .unary, 0, _, by simpa using Reads.atom 0 h0, rfl, fun _ => rfl, fun _ => nofun, fun _ => nofun⟩

theorem xx_rule22 {p q la : Nat} {ts : List Tok} {us : List PVal} (hc : Chain Tok.num xxCert XM p [48] ts la us q) :
    ∃ v, xxAction 22 us = .ok v ∧ XM p 47 ts la v := by
  obtain ⟨v0, w0, t0, r0, q0, rfl, rfl, m0, e0, y0, rfl, rfl, rfl⟩ := hc
  obtain ⟨n0, h0, rfl⟩ : ∃ a, ReadsAtom t0 a ∧ v0 = PVal.node (.leaf a) := m0
  exact ⟨_, rfl, .unary, 0, _, by simpa using Reads.atom 0 h0, rfl, fun _ => rfl, fun _ => nofun, fun _ => nofun⟩

theorem xx_rule23 {p q la : Nat} {ts : List Tok} {us : List PVal} (hc : Chain Tok.num xxCert XM p [39, 29] ts la us q) :
    ∃ v, xxAction 23 us = .ok v ∧ XM p 48 ts la v := by
  obtain ⟨v0, w0, t0, r0, q0, rfl, rfl, m0, e0, y0, v1, w1, t1, r1, q1, rfl, rfl, m1, e1, y1, rfl, rfl, rfl⟩ := hc
  obtain ⟨x0, rfl, rfl⟩ : ∃ x, t0 = [Tok.ident x] ∧ v0 = PVal.string x := m0
  obtain ⟨k1, rfl, z1, rfl⟩ : ∃ k, t1 = [k] ∧ Tok.num k = 29 ∧ v1 = k.val := m1
  obtain rfl : k1 = .isNull := by cases k1 <;> simp [Tok.num] at z1 ⊢
  exact ⟨_, rfl, _, ReadsAtom.isNull _ .isNull, rfl⟩

theorem xx_rule24 {p q la : Nat} {ts : List Tok} {us : List PVal} (hc : Chain Tok.num xxCert XM p [39, 28] ts la us q) :
    ∃ v, xxAction 24 us = .ok v ∧ XM p 48 ts la v := by
  obtain ⟨v0, w0, t0, r0, q0, rfl, rfl, m0, e0, y0, v1, w1, t1, r1, q1, rfl, rfl, m1, e1, y1, rfl, rfl, rfl⟩ := hc
  obtain ⟨x0, rfl, rfl⟩ : ∃ x, t0 = [Tok.ident x] ∧ v0 = PVal.string x := m0
  obtain ⟨k1, rfl, z1, rfl⟩ : ∃ k, t1 = [k] ∧ Tok.num k = 28 ∧ v1 = k.val := m1
  obtain rfl : k1 = .isNotNull := by cases k1 <;> simp [Tok.num] at z1 ⊢
  exact ⟨_, rfl, _, ReadsAtom.isNull _ .isNotNull, rfl⟩

theorem xx_rule25 {p q la : Nat} {ts : List Tok} {us : List PVal} (hc : Chain Tok.num xxCert XM p [39, 30] ts la us q) :
    ∃ v, xxAction 25 us = .ok v ∧ XM p 48 ts la v := by
  obtain ⟨v0, w0, t0, r0, q0, rfl, rfl, m0, e0, y0, v1, w1, t1, r1, q1, rfl, rfl, m1, e1, y1, rfl, rfl, rfl⟩ := hc
  obtain ⟨x0, rfl, rfl⟩ : ∃ x, t0 = [Tok.ident x] ∧ v0 = PVal.string x := m0
  obtain ⟨k1, rfl, z1, rfl⟩ : ∃ k, t1 = [k] ∧ Tok.num k = 30 ∧ v1 = k.val := m1
  obtain rfl : k1 = .isEmpty := by cases k1 <;> simp [Tok.num] at z1 ⊢
  exact ⟨_, rfl, _, ReadsAtom.isNull _ .isEmpty, rfl⟩

theorem xx_rule26 {p q la : Nat} {ts : List Tok} {us : List PVal} (hc : Chain Tok.num xxCert XM p [40] ts la us q) :
    ∃ v, xxAction 26 us = .ok v ∧ XM p 49 ts la v := by
  obtain ⟨v0, w0, t0, r0, q0, rfl, rfl, m0, e0, y0, rfl, rfl, rfl⟩ := hc
  obtain ⟨n0, h0, rfl⟩ : ∃ n, ReadsInt t0 n ∧ v0 = PVal.int n := m0
  exact ⟨_, rfl, _, by simpa using ReadsNum.int h0, rfl⟩

theorem xx_rule27 {p q la : Nat} {ts : List Tok} {us : List PVal} (hc : Chain Tok.num xxCert XM p [41] ts la us q) :
    ∃ v, xxAction 27 us = .ok v ∧ XM p 49 ts la v := by
  obtain ⟨v0, w0, t0, r0, q0, rfl, rfl, m0, e0, y0, rfl, rfl, rfl⟩ := hc
  obtain ⟨n0, h0, rfl⟩ : ∃ n, ReadsFloat t0 n ∧ v0 = PVal.float n := m0
  exact ⟨_, rfl, _, by simpa using ReadsNum.float h0, rfl⟩

theorem xx_rule28 {p q la : Nat} {ts : List Tok} {us : List PVal} (hc : Chain Tok.num xxCert XM p [39, 6, 49] ts la us q) :
    ∃ v, xxAction 28 us = .ok v ∧ XM p 50 ts la v := by
  obtain ⟨v0, w0, t0, r0, q0, rfl, rfl, m0, e0, y0, v1, w1, t1, r1, q1, rfl, rfl, m1, e1, y1, v2, w2, t2, r2, q2, rfl, rfl, m2, e2, y2, rfl, rfl, rfl⟩ := hc
  obtain ⟨x0, rfl, rfl⟩ : ∃ x, t0 = [Tok.ident x] ∧ v0 = PVal.string x := m0
  obtain ⟨k1, rfl, z1, rfl⟩ : ∃ k, t1 = [k] ∧ Tok.num k = 6 ∧ v1 = k.val := m1
  obtain rfl : k1 = .gt := by cases k1 <;> simp [Tok.num] at z1 ⊢
  obtain ⟨n2, h2, rfl⟩ : ∃ c, ReadsNum t2 c ∧ v2 = PVal.cmp c := m2
  exact ⟨_, rfl, _, atomOf (ReadsAtom.compare x0 .gt h2) (by simp), rfl⟩

theorem xx_rule29 {p q la : Nat} {ts : List Tok} {us : List PVal} (hc : Chain Tok.num xxCert XM p [39, 7, 49] ts la us q) :
    ∃ v, xxAction 29 us = .ok v ∧ XM p 50 ts la v := by
  obtain ⟨v0, w0, t0, r0, q0, rfl, rfl, m0, e0, y0, v1, w1, t1, r1, q1, rfl, rfl, m1, e1, y1, v2, w2, t2, r2, q2, rfl, rfl, m2, e2, y2, rfl, rfl, rfl⟩ := hc
  obtain ⟨x0, rfl, rfl⟩ : ∃ x, t0 = [Tok.ident x] ∧ v0 = PVal.string x := m0
  obtain ⟨k1, rfl, z1, rfl⟩ : ∃ k, t1 = [k] ∧ Tok.num k = 7 ∧ v1 = k.val := m1
  obtain rfl : k1 = .ge := by cases k1 <;> simp [Tok.num] at z1 ⊢
  obtain ⟨n2, h2, rfl⟩ : ∃ c, ReadsNum t2 c ∧ v2 = PVal.cmp c := m2
  exact ⟨_, rfl, _, atomOf (ReadsAtom.compare x0 .ge h2) (by simp), rfl⟩

theorem xx_rule30 {p q la : Nat} {ts : List Tok} {us : List PVal} (hc : Chain Tok.num xxCert XM p [39, 8, 49] ts la us q) :
    ∃ v, xxAction 30 us = .ok v ∧ XM p 50 ts la v := by
  obtain ⟨v0, w0, t0, r0, q0, rfl, rfl, m0, e0, y0, v1, w1, t1, r1, q1, rfl, rfl, m1, e1, y1, v2, w2, t2, r2, q2, rfl, rfl, m2, e2, y2, rfl, rfl, rfl⟩ := hc
  obtain ⟨x0, rfl, rfl⟩ : ∃ x, t0 = [Tok.ident x] ∧ v0 = PVal.string x := m0
  obtain ⟨k1, rfl, z1, rfl⟩ : ∃ k, t1 = [k] ∧ Tok.num k = 8 ∧ v1 = k.val := m1
  obtain rfl : k1 = .lt := by cases k1 <;> simp [Tok.num] at z1 ⊢
  obtain ⟨n2, h2, rfl⟩ : ∃ c, ReadsNum t2 c ∧ v2 = PVal.cmp c := m2
  exact ⟨_, rfl, _, atomOf (ReadsAtom.compare x0 .lt h2) (by simp), rfl⟩

theorem xx_rule31 {p q la : Nat} {ts : List Tok} {us : List PVal} (hc : Chain Tok.num xxCert XM p [39, 9, 49] ts la us q) :
    ∃ v, xxAction 31 us = .ok v ∧ XM p 50 ts la v := by
  obtain ⟨v0, w0, t0, r0, q0, rfl, rfl, m0, e0, y0, v1, w1, t1, r1, q1, rfl, rfl, m1, e1, y1, v2, w2, t2, r2, q2, rfl, rfl, m2, e2, y2, rfl, rfl, rfl⟩ := hc
  obtain ⟨x0, rfl, rfl⟩ : ∃ x, t0 = [Tok.ident x] ∧ v0 = PVal.string x := m0
  obtain ⟨k1, rfl, z1, rfl⟩ : ∃ k, t1 = [k] ∧ Tok.num k = 9 ∧ v1 = k.val := m1
  obtain rfl : k1 = .le := by cases k1 <;> simp [Tok.num] at z1 ⊢
  obtain ⟨n2, h2, rfl⟩ : ∃ c, ReadsNum t2 c ∧ v2 = PVal.cmp c := m2
  exact ⟨_, rfl, _, atomOf (ReadsAtom.compare x0 .le h2) (by simp), rfl⟩

theorem xx_rule32 {p q la : Nat} {ts : List Tok} {us : List PVal} (hc : Chain Tok.num xxCert XM p [49, 8, 39] ts la us q) :
    ∃ v, xxAction 32 us = .ok v ∧ XM p 50 ts la v := by
  obtain ⟨v0, w0, t0, r0, q0, rfl, rfl, m0, e0, y0, v1, w1, t1, r1, q1, rfl, rfl, m1, e1, y1, v2, w2, t2, r2, q2, rfl, rfl, m2, e2, y2, rfl, rfl, rfl⟩ := hc
  obtain ⟨n0, h0, rfl⟩ : ∃ c, ReadsNum t0 c ∧ v0 = PVal.cmp c := m0
  obtain ⟨k1, rfl, z1, rfl⟩ : ∃ k, t1 = [k] ∧ Tok.num k = 8 ∧ v1 = k.val := m1
  obtain rfl : k1 = .lt := by cases k1 <;> simp [Tok.num] at z1 ⊢
  obtain ⟨x2, rfl, rfl⟩ : ∃ x, t2 = [Tok.ident x] ∧ v2 = PVal.string x := m2
  exact ⟨_, rfl, _, atomOf (ReadsAtom.compareLeft x2 .lt h0) (by simp), rfl⟩

theorem xx_rule33 {p q la : Nat} {ts : List Tok} {us : List PVal} (hc : Chain Tok.num xxCert XM p [49, 9, 39] ts la us q) :
    ∃ v, xxAction 33 us = .ok v ∧ XM p 50 ts la v := by
  obtain ⟨v0, w0, t0, r0, q0, rfl, rfl, m0, e0, y0, v1, w1, t1, r1, q1, rfl, rfl, m1, e1, y1, v2, w2, t2, r2, q2, rfl, rfl, m2, e2, y2, rfl, rfl, rfl⟩ := hc
  obtain ⟨n0, h0, rfl⟩ : ∃ c, ReadsNum t0 c ∧ v0 = PVal.cmp c := m0
  obtain ⟨k1, rfl, z1, rfl⟩ : ∃ k, t1 = [k] ∧ Tok.num k = 9 ∧ v1 = k.val := m1
  obtain rfl : k1 = .le := by cases k1 <;> simp [Tok.num] at z1 ⊢
  obtain ⟨x2, rfl, rfl⟩ : ∃ x, t2 = [Tok.ident x] ∧ v2 = PVal.string x := m2
  exact ⟨_, rfl, _, atomOf (ReadsAtom.compareLeft x2 .le h0) (by simp), rfl⟩

theorem xx_rule34 {p q la : Nat} {ts : List Tok} {us : List PVal} (hc : Chain Tok.num xxCert XM p [49, 6, 39] ts la us q) :
    ∃ v, xxAction 34 us = .ok v ∧ XM p 50 ts la v := by
  obtain ⟨v0, w0, t0, r0, q0, rfl, rfl, m0, e0, y0, v1, w1, t1, r1, q1, rfl, rfl, m1, e1, y1, v2, w2, t2, r2, q2, rfl, rfl, m2, e2, y2, rfl, rfl, rfl⟩ := hc
  obtain ⟨n0, h0, rfl⟩ : ∃ c, ReadsNum t0 c ∧ v0 = PVal.cmp c := m0
  obtain ⟨k1, rfl, z1, rfl⟩ : ∃ k, t1 = [k] ∧ Tok.num k = 6 ∧ v1 = k.val := m1
  obtain rfl : k1 = .gt := by cases k1 <;> simp [Tok.num] at z1 ⊢
  obtain ⟨x2, rfl, rfl⟩ : ∃ x, t2 = [Tok.ident x] ∧ v2 = PVal.string x := m2
  exact ⟨_, rfl, _, atomOf (ReadsAtom.compareLeft x2 .gt h0) (by simp), rfl⟩

theorem xx_rule35 {p q la : Nat} {ts : List Tok} {us : List PVal} (hc : Chain Tok.num xxCert XM p [49, 7, 39] ts la us q) :
    ∃ v, xxAction 35 us = .ok v ∧ XM p 50 ts la v := by
  obtain ⟨v0, w0, t0, r0, q0, rfl, rfl, m0, e0, y0, v1, w1, t1, r1, q1, rfl, rfl, m1, e1, y1, v2, w2, t2, r2, q2, rfl, rfl, m2, e2, y2, rfl, rfl, rfl⟩ := hc
  obtain ⟨n0, h0, rfl⟩ : ∃ c, ReadsNum t0 c ∧ v0 = PVal.cmp c := m0
  obtain ⟨k1, rfl, z1, rfl⟩ : ∃ k, t1 = [k] ∧ Tok.num k = 7 ∧ v1 = k.val := m1
  obtain rfl : k1 = .ge := by cases k1 <;> simp [Tok.num] at z1 ⊢
  obtain ⟨x2, rfl, rfl⟩ : ∃ x, t2 = [Tok.ident x] ∧ v2 = PVal.string x := m2
  exact ⟨_, rfl, _, atomOf (ReadsAtom.compareLeft x2 .ge h0) (by simp), rfl⟩

theorem xx_rule36 {p q la : Nat} {ts : List Tok} {us : List PVal} (hc : Chain Tok.num xxCert XM p [40] ts la us q) :
    ∃ v, xxAction 36 us = .ok v ∧ XM p 51 ts la v := by
  obtain ⟨v0, w0, t0, r0, q0, rfl, rfl, m0, e0, y0, rfl, rfl, rfl⟩ := hc
  obtain ⟨n0, h0, rfl⟩ : ∃ n, ReadsInt t0 n ∧ v0 = PVal.int n := m0
  exact ⟨_, rfl, _, by simpa using ReadsConst.int h0, rfl⟩

theorem xx_rule37 {p q la : Nat} {ts : List Tok} {us : List PVal} (hc : Chain Tok.num xxCert XM p [41] ts la us q) :
    ∃ v, xxAction 37 us = .ok v ∧ XM p 51 ts la v := by
  obtain ⟨v0, w0, t0, r0, q0, rfl, rfl, m0, e0, y0, rfl, rfl, rfl⟩ := hc
  obtain ⟨n0, h0, rfl⟩ : ∃ n, ReadsFloat t0 n ∧ v0 = PVal.float n := m0
  exact ⟨_, rfl, _, by simpa using ReadsConst.float h0, rfl⟩

theorem xx_rule38 {p q la : Nat} {ts : List Tok} {us : List PVal} (hc : Chain Tok.num xxCert XM p [42] ts la us q) :
    ∃ v, xxAction 38 us = .ok v ∧ XM p 51 ts la v := by
  obtain ⟨v0, w0, t0, r0, q0, rfl, rfl, m0, e0, y0, rfl, rfl, rfl⟩ := hc
  obtain ⟨s0, rfl, rfl⟩ : ∃ s, t0 = [Tok.string s] ∧ v0 = PVal.strVal (quoted s) := m0
  exact ⟨_, rfl, _, ReadsConst.string _, rfl⟩

theorem xx_rule39 {p q la : Nat} {ts : List Tok} {us : List PVal} (hc : Chain Tok.num xxCert XM p [39, 4, 51] ts la us q) :
    ∃ v, xxAction 39 us = .ok v ∧ XM p 52 ts la v := by
  obtain ⟨v0, w0, t0, r0, q0, rfl, rfl, m0, e0, y0, v1, w1, t1, r1, q1, rfl, rfl, m1, e1, y1, v2, w2, t2, r2, q2, rfl, rfl, m2, e2, y2, rfl, rfl, rfl⟩ := hc
  obtain ⟨x0, rfl, rfl⟩ : ∃ x, t0 = [Tok.ident x] ∧ v0 = PVal.string x := m0
  obtain ⟨k1, rfl, z1, rfl⟩ : ∃ k, t1 = [k] ∧ Tok.num k = 4 ∧ v1 = k.val := m1
  obtain rfl : k1 = .eq := by cases k1 <;> simp [Tok.num] at z1 ⊢
  obtain ⟨n2, h2, rfl⟩ : ∃ c, ReadsConst t2 c ∧ v2 = PVal.eq c := m2
  exact ⟨_, rfl, _, atomOf (ReadsAtom.equality x0 .eq h2) (by simp), rfl⟩

theorem xx_rule40 {p q la : Nat} {ts : List Tok} {us : List PVal} (hc : Chain Tok.num xxCert XM p [39, 5, 51] ts la us q) :
    ∃ v, xxAction 40 us = .ok v ∧ XM p 52 ts la v := by
  obtain ⟨v0, w0, t0, r0, q0, rfl, rfl, m0, e0, y0, v1, w1, t1, r1, q1, rfl, rfl, m1, e1, y1, v2, w2, t2, r2, q2, rfl, rfl, m2, e2, y2, rfl, rfl, rfl⟩ := hc
  obtain ⟨x0, rfl, rfl⟩ : ∃ x, t0 = [Tok.ident x] ∧ v0 = PVal.string x := m0
  obtain ⟨k1, rfl, z1, rfl⟩ : ∃ k, t1 = [k] ∧ Tok.num k = 5 ∧ v1 = k.val := m1
  obtain rfl : k1 = .ne := by cases k1 <;> simp [Tok.num] at z1 ⊢
  obtain ⟨n2, h2, rfl⟩ : ∃ c, ReadsConst t2 c ∧ v2 = PVal.eq c := m2
  exact ⟨_, rfl, _, atomOf (ReadsAtom.equality x0 .ne h2) (by simp), rfl⟩

theorem xx_rule41 {p q la : Nat} {ts : List Tok} {us : List PVal} (hc : Chain Tok.num xxCert XM p [51, 4, 39] ts la us q) :
    ∃ v, xxAction 41 us = .ok v ∧ XM p 52 ts la v := by
  obtain ⟨v0, w0, t0, r0, q0, rfl, rfl, m0, e0, y0, v1, w1, t1, r1, q1, rfl, rfl, m1, e1, y1, v2, w2, t2, r2, q2, rfl, rfl, m2, e2, y2, rfl, rfl, rfl⟩ := hc
  obtain ⟨n0, h0, rfl⟩ : ∃ c, ReadsConst t0 c ∧ v0 = PVal.eq c := m0
  obtain ⟨k1, rfl, z1, rfl⟩ : ∃ k, t1 = [k] ∧ Tok.num k = 4 ∧ v1 = k.val := m1
  obtain rfl : k1 = .eq := by cases k1 <;> simp [Tok.num] at z1 ⊢
  obtain ⟨x2, rfl, rfl⟩ : ∃ x, t2 = [Tok.ident x] ∧ v2 = PVal.string x := m2
  exact ⟨_, rfl, _, atomOf (ReadsAtom.equalityLeft x2 .eq h0) (by simp), rfl⟩

theorem xx_rule42 {p q la : Nat} {ts : List Tok} {us : List PVal} (hc : Chain Tok.num xxCert XM p [51, 5, 39] ts la us q) :
    ∃ v, xxAction 42 us = .ok v ∧ XM p 52 ts la v := by
  obtain ⟨v0, w0, t0, r0, q0, rfl, rfl, m0, e0, y0, v1, w1, t1, r1, q1, rfl, rfl, m1, e1, y1, v2, w2, t2, r2, q2, rfl, rfl, m2, e2, y2, rfl, rfl, rfl⟩ := hc
  obtain ⟨n0, h0, rfl⟩ : ∃ c, ReadsConst t0 c ∧ v0 = PVal.eq c := m0
  obtain ⟨k1, rfl, z1, rfl⟩ : ∃ k, t1 = [k] ∧ Tok.num k = 5 ∧ v1 = k.val := m1
  obtain rfl : k1 = .ne := by cases k1 <;> simp [Tok.num] at z1 ⊢
  obtain ⟨x2, rfl, rfl⟩ : ∃ x, t2 = [Tok.ident x] ∧ v2 = PVal.string x := m2
  exact ⟨_, rfl, _, atomOf (ReadsAtom.equalityLeft x2 .ne h0) (by simp), rfl⟩

theorem xx_rule43 {p q la : Nat} {ts : List Tok} {us : List PVal} (hc : Chain Tok.num xxCert XM p [39] ts la us q) :
    ∃ v, xxAction 43 us = .ok v ∧ XM p 53 ts la v := by
  obtain ⟨v0, w0, t0, r0, q0, rfl, rfl, m0, e0, y0, rfl, rfl, rfl⟩ := hc
  obtain ⟨x0, rfl, rfl⟩ : ∃ x, t0 = [Tok.ident x] ∧ v0 = PVal.string x := m0
  exact ⟨_, rfl, _, rfl, rfl⟩

theorem xx_rule44 {p q la : Nat} {ts : List Tok} {us : List PVal} (hc : Chain Tok.num xxCert XM p [40] ts la us q) :
    ∃ v, xxAction 44 us = .ok v ∧ XM p 54 ts la v := by
  obtain ⟨v0, w0, t0, r0, q0, rfl, rfl, m0, e0, y0, rfl, rfl, rfl⟩ := hc
  obtain ⟨n0, h0, rfl⟩ : ∃ n, ReadsInt t0 n ∧ v0 = PVal.int n := m0
  exact ⟨_, rfl, _, by simpa using ReadsLeft.int h0, rfl⟩

theorem xx_rule45 {p q la : Nat} {ts : List Tok} {us : List PVal} (hc : Chain Tok.num xxCert XM p [42] ts la us q) :
    ∃ v, xxAction 45 us = .ok v ∧ XM p 54 ts la v := by
  obtain ⟨v0, w0, t0, r0, q0, rfl, rfl, m0, e0, y0, rfl, rfl, rfl⟩ := hc
  obtain ⟨s0, rfl, rfl⟩ : ∃ s, t0 = [Tok.string s] ∧ v0 = PVal.strVal (quoted s) := m0
  exact ⟨_, rfl, _, ReadsLeft.string _, rfl⟩

theorem xx_rule46 {p q la : Nat} {ts : List Tok} {us : List PVal} (hc : Chain Tok.num xxCert XM p [53] ts la us q) :
    ∃ v, xxAction 46 us = .ok v ∧ XM p 54 ts la v := by
  obtain ⟨v0, w0, t0, r0, q0, rfl, rfl, m0, e0, y0, rfl, rfl, rfl⟩ := hc
  obtain ⟨x0, rfl, rfl⟩ : ∃ x, t0 = [Tok.ident x] ∧ v0 = PVal.var (named x) := m0
  exact ⟨_, rfl, _, ReadsLeft.var _, rfl⟩

theorem xx_rule47 {p q la : Nat} {ts : List Tok} {us : List PVal} (hc : Chain Tok.num xxCert XM p [43] ts la us q) :
    ∃ v, xxAction 47 us = .ok v ∧ XM p 55 ts la v := by
  obtain ⟨v0, w0, t0, r0, q0, rfl, rfl, m0, e0, y0, rfl, rfl, rfl⟩ := hc
  obtain ⟨u0, n0, h0, rfl, rfl⟩ : ∃ u l, ReadsInts u l ∧ t0 = Tok.lparen :: u ++ [Tok.rparen] ∧ v0 = PVal.ints l := m0
  exact ⟨_, rfl, _, by simpa using ReadsRight.ints h0, rfl⟩

theorem xx_rule48 {p q la : Nat} {ts : List Tok} {us : List PVal} (hc : Chain Tok.num xxCert XM p [45] ts la us q) :
    ∃ v, xxAction 48 us = .ok v ∧ XM p 55 ts la v := by
  obtain ⟨v0, w0, t0, r0, q0, rfl, rfl, m0, e0, y0, rfl, rfl, rfl⟩ := hc
  obtain ⟨u0, n0, h0, rfl, rfl⟩ : ∃ u l, ReadsStrs u l ∧ t0 = Tok.lparen :: u ++ [Tok.rparen] ∧ v0 = PVal.strs l := m0
  exact ⟨_, rfl, _, by simpa using ReadsRight.strs h0, rfl⟩

theorem xx_rule49 {p q la : Nat} {ts : List Tok} {us : List PVal} (hc : Chain Tok.num xxCert XM p [53] ts la us q) :
    ∃ v, xxAction 49 us = .ok v ∧ XM p 55 ts la v := by
  obtain ⟨v0, w0, t0, r0, q0, rfl, rfl, m0, e0, y0, rfl, rfl, rfl⟩ := hc
  obtain ⟨x0, rfl, rfl⟩ : ∃ x, t0 = [Tok.ident x] ∧ v0 = PVal.var (named x) := m0
  exact ⟨_, rfl, _, ReadsRight.var _, rfl⟩

theorem xx_rule50 {p q la : Nat} {ts : List Tok} {us : List PVal} (hc : Chain Tok.num xxCert XM p [54, 13, 55] ts la us q) :
    ∃ v, xxAction 50 us = .ok v ∧ XM p 56 ts la v := by
  obtain ⟨v0, w0, t0, r0, q0, rfl, rfl, m0, e0, y0, v1, w1, t1, r1, q1, rfl, rfl, m1, e1, y1, v2, w2, t2, r2, q2, rfl, rfl, m2, e2, y2, rfl, rfl, rfl⟩ := hc
  obtain ⟨n0, h0, rfl⟩ : ∃ c, ReadsLeft t0 c ∧ v0 = PVal.setLeft c := m0
  obtain ⟨k1, rfl, z1, rfl⟩ : ∃ k, t1 = [k] ∧ Tok.num k = 13 ∧ v1 = k.val := m1
  obtain rfl : k1 = .notIn := by cases k1 <;> simp [Tok.num] at z1 ⊢
  obtain ⟨n2, h2, rfl⟩ : ∃ c, ReadsRight t2 c ∧ v2 = PVal.setRight c := m2
  exact ⟨_, rfl, _, atomOf (ReadsAtom.set .notIn h0 h2) (by simp), rfl⟩

theorem xx_rule51 {p q la : Nat} {ts : List Tok} {us : List PVal} (hc : Chain Tok.num xxCert XM p [54, 14, 55] ts la us q) :
    ∃ v, xxAction 51 us = .ok v ∧ XM p 56 ts la v := by
  obtain ⟨v0, w0, t0, r0, q0, rfl, rfl, m0, e0, y0, v1, w1, t1, r1, q1, rfl, rfl, m1, e1, y1, v2, w2, t2, r2, q2, rfl, rfl, m2, e2, y2, rfl, rfl, rfl⟩ := hc
  obtain ⟨n0, h0, rfl⟩ : ∃ c, ReadsLeft t0 c ∧ v0 = PVal.setLeft c := m0
  obtain ⟨k1, rfl, z1, rfl⟩ : ∃ k, t1 = [k] ∧ Tok.num k = 14 ∧ v1 = k.val := m1
  obtain rfl : k1 = .isIn := by cases k1 <;> simp [Tok.num] at z1 ⊢
  obtain ⟨n2, h2, rfl⟩ : ∃ c, ReadsRight t2 c ∧ v2 = PVal.setRight c := m2
  exact ⟨_, rfl, _, atomOf (ReadsAtom.set .isIn h0 h2) (by simp), rfl⟩

theorem xx_rule52 {p q la : Nat} {ts : List Tok} {us : List PVal} (hc : Chain Tok.num xxCert XM p [43] ts la us q) :
    ∃ v, xxAction 52 us = .ok v ∧ XM p 57 ts la v := by
  obtain ⟨v0, w0, t0, r0, q0, rfl, rfl, m0, e0, y0, rfl, rfl, rfl⟩ := hc
  obtain ⟨u0, n0, h0, rfl, rfl⟩ : ∃ u l, ReadsInts u l ∧ t0 = Tok.lparen :: u ++ [Tok.rparen] ∧ v0 = PVal.ints l := m0
  exact ⟨_, rfl, _, by simpa using ReadsList.ints h0, rfl⟩

theorem xx_rule53 {p q la : Nat} {ts : List Tok} {us : List PVal} (hc : Chain Tok.num xxCert XM p [45] ts la us q) :
    ∃ v, xxAction 53 us = .ok v ∧ XM p 57 ts la v := by
  obtain ⟨v0, w0, t0, r0, q0, rfl, rfl, m0, e0, y0, rfl, rfl, rfl⟩ := hc
  obtain ⟨u0, n0, h0, rfl, rfl⟩ : ∃ u l, ReadsStrs u l ∧ t0 = Tok.lparen :: u ++ [Tok.rparen] ∧ v0 = PVal.strs l := m0
  exact ⟨_, rfl, _, by simpa using ReadsList.strs h0, rfl⟩

theorem xx_rule54 {p q la : Nat} {ts : List Tok} {us : List PVal} (hc : Chain Tok.num xxCert XM p [39, 15, 57] ts la us q) :
    ∃ v, xxAction 54 us = .ok v ∧ XM p 58 ts la v := by
  obtain ⟨v0, w0, t0, r0, q0, rfl, rfl, m0, e0, y0, v1, w1, t1, r1, q1, rfl, rfl, m1, e1, y1, v2, w2, t2, r2, q2, rfl, rfl, m2, e2, y2, rfl, rfl, rfl⟩ := hc
  obtain ⟨x0, rfl, rfl⟩ : ∃ x, t0 = [Tok.ident x] ∧ v0 = PVal.string x := m0
  obtain ⟨k1, rfl, z1, rfl⟩ : ∃ k, t1 = [k] ∧ Tok.num k = 15 ∧ v1 = k.val := m1
  obtain rfl : k1 = .oneOf := by cases k1 <;> simp [Tok.num] at z1 ⊢
  obtain ⟨n2, h2, rfl⟩ : ∃ c, ReadsList t2 c ∧ v2 = PVal.list c := m2
  exact ⟨_, rfl, _, atomOf (ReadsAtom.list x0 .oneOf h2) (by simp), rfl⟩

theorem xx_rule55 {p q la : Nat} {ts : List Tok} {us : List PVal} (hc : Chain Tok.num xxCert XM p [39, 16, 57] ts la us q) :
    ∃ v, xxAction 55 us = .ok v ∧ XM p 58 ts la v := by
  obtain ⟨v0, w0, t0, r0, q0, rfl, rfl, m0, e0, y0, v1, w1, t1, r1, q1, rfl, rfl, m1, e1, y1, v2, w2, t2, r2, q2, rfl, rfl, m2, e2, y2, rfl, rfl, rfl⟩ := hc
  obtain ⟨x0, rfl, rfl⟩ : ∃ x, t0 = [Tok.ident x] ∧ v0 = PVal.string x := m0
  obtain ⟨k1, rfl, z1, rfl⟩ : ∃ k, t1 = [k] ∧ Tok.num k = 16 ∧ v1 = k.val := m1
  obtain rfl : k1 = .noneOf := by cases k1 <;> simp [Tok.num] at z1 ⊢
  obtain ⟨n2, h2, rfl⟩ : ∃ c, ReadsList t2 c ∧ v2 = PVal.list c := m2
  exact ⟨_, rfl, _, atomOf (ReadsAtom.list x0 .noneOf h2) (by simp), rfl⟩

theorem xx_rule56 {p q la : Nat} {ts : List Tok} {us : List PVal} (hc : Chain Tok.num xxCert XM p [39, 17, 57] ts la us q) :
    ∃ v, xxAction 56 us = .ok v ∧ XM p 58 ts la v := by
  obtain ⟨v0, w0, t0, r0, q0, rfl, rfl, m0, e0, y0, v1, w1, t1, r1, q1, rfl, rfl, m1, e1, y1, v2, w2, t2, r2, q2, rfl, rfl, m2, e2, y2, rfl, rfl, rfl⟩ := hc
  obtain ⟨x0, rfl, rfl⟩ : ∃ x, t0 = [Tok.ident x] ∧ v0 = PVal.string x := m0
  obtain ⟨k1, rfl, z1, rfl⟩ : ∃ k, t1 = [k] ∧ Tok.num k = 17 ∧ v1 = k.val := m1
  obtain rfl : k1 = .allOf := by cases k1 <;> simp [Tok.num] at z1 ⊢
  obtain ⟨n2, h2, rfl⟩ : ∃ c, ReadsList t2 c ∧ v2 = PVal.list c := m2
  exact ⟨_, rfl, _, atomOf (ReadsAtom.list x0 .allOf h2) (by simp), rfl⟩

theorem xx_rule57 {p q la : Nat} {ts : List Tok} {us : List PVal} (hc : Chain Tok.num xxCert XM p [47, 18, 47] ts la us q) :
    ∃ v, xxAction 57 us = .ok v ∧ XM p 59 ts la v := by
  obtain ⟨v0, w0, t0, r0, q0, rfl, rfl, m0, e0, y0, v1, w1, t1, r1, q1, rfl, rfl, m1, e1, y1, v2, w2, t2, r2, q2, rfl, rfl, m2, e2, y2, rfl, rfl, rfl⟩ := hc
  obtain ⟨l0, d0, o0, h0, rfl, a0, b0, c0⟩ := m0
  obtain ⟨k1, rfl, z1, rfl⟩ : ∃ k, t1 = [k] ∧ Tok.num k = 18 ∧ v1 = k.val := m1
  obtain rfl : k1 = .and := by cases k1 <;> simp [Tok.num] at z1 ⊢
  obtain ⟨l2, d2, o2, h2, rfl, a2, b2, c2⟩ := m2
  obtain rfl := xx_after_and y1
  obtain rfl := a2 (Or.inr rfl)
  have hl := c0 rfl
  have hp := xx_left_and _ e1 _ e0
  refine ⟨_, rfl, .and, max d0 d2, .and o0 o2, ?_, rfl, ?_, fun _ => nofun, fun _ => nofun⟩
  · simpa using Reads.and (reads_mono (Nat.le_max_left _ _) (reads_and h0 hl)) (reads_mono (Nat.le_max_right _ _) h2)
  · rintro (rfl | rfl) <;> simp at hp

theorem xx_rule58 {p q la : Nat} {ts : List Tok} {us : List PVal} (hc : Chain Tok.num xxCert XM p [47, 19, 47] ts la us q) (hact : xxTables.act q la = .reduce 58) :
    ∃ v, xxAction 58 us = .ok v ∧ XM p 59 ts la v := by
  obtain ⟨v0, w0, t0, r0, q0, rfl, rfl, m0, e0, y0, v1, w1, t1, r1, q1, rfl, rfl, m1, e1, y1, v2, w2, t2, r2, q2, rfl, rfl, m2, e2, y2, rfl, rfl, rfl⟩ := hc
  obtain ⟨l0, d0, o0, h0, rfl, a0, b0, c0⟩ := m0
  obtain ⟨k1, rfl, z1, rfl⟩ : ∃ k, t1 = [k] ∧ Tok.num k = 19 ∧ v1 = k.val := m1
  obtain rfl : k1 = .or := by cases k1 <;> simp [Tok.num] at z1 ⊢
  obtain ⟨l2, d2, o2, h2, rfl, a2, b2, c2⟩ := m2
  obtain rfl := xx_after_or y1
  have hl := b2 rfl
  have hp := xx_left_or _ e1 _ e0
  have hla := xx_or_la e2 y2 hact
  refine ⟨_, rfl, .or, max d0 d2, .or o0 o2, ?_, rfl, ?_, ?_, fun h => absurd h hla⟩
  · simpa using Reads.or (reads_mono (Nat.le_max_left _ _) (reads_or h0)) (reads_mono (Nat.le_max_right _ _) (reads_and h2 hl))
  · rintro (rfl | rfl) <;> simp at hp
  · rintro rfl; simp at hp

theorem xx_rule59 {p q la : Nat} {ts : List Tok} {us : List PVal} (hc : Chain Tok.num xxCert XM p [20, 47] ts la us q) :
    ∃ v, xxAction 59 us = .ok v ∧ XM p 59 ts la v := by
  obtain ⟨v0, w0, t0, r0, q0, rfl, rfl, m0, e0, y0, v1, w1, t1, r1, q1, rfl, rfl, m1, e1, y1, rfl, rfl, rfl⟩ := hc
  obtain ⟨k0, rfl, z0, rfl⟩ : ∃ k, t0 = [k] ∧ Tok.num k = 20 ∧ v0 = k.val := m0
  obtain rfl : k0 = .not := by cases k0 <;> simp [Tok.num] at z0 ⊢
  obtain ⟨l1, d1, o1, h1, rfl, a1, b1, c1⟩ := m1
  obtain rfl := xx_after_not y0
  obtain rfl := a1 (Or.inl rfl)
  exact ⟨_, rfl, .unary, d1 + 1, .not o1, by simpa using Reads.not h1, rfl, fun _ => rfl, fun _ => nofun, fun _ => nofun⟩

theorem xx_rule60 {p q la : Nat} {ts : List Tok} {us : List PVal} (hc : Chain Tok.num xxCert XM p [39] ts la us q) :
    ∃ v, xxAction 60 us = .ok v ∧ XM p 59 ts la v := by
  obtain ⟨v0, w0, t0, r0, q0, rfl, rfl, m0, e0, y0, rfl, rfl, rfl⟩ := hc
  obtain ⟨x0, rfl, rfl⟩ : ∃ x, t0 = [Tok.ident x] ∧ v0 = PVal.string x := m0
  exact ⟨_, rfl, .unary, 0, _, Reads.atom 0 (.boolVar x0), rfl, fun _ => rfl, fun _ => nofun, fun _ => nofun⟩

theorem xx_rule61 {p q la : Nat} {ts : List Tok} {us : List PVal} (hc : Chain Tok.num xxCert XM p [31] ts la us q) :
    ∃ v, xxAction 61 us = .ok v ∧ XM p 59 ts la v := by
  obtain ⟨v0, w0, t0, r0, q0, rfl, rfl, m0, e0, y0, rfl, rfl, rfl⟩ := hc
  obtain ⟨k0, rfl, z0, rfl⟩ : ∃ k, t0 = [k] ∧ Tok.num k = 31 ∧ v0 = k.val := m0
  obtain rfl : k0 = .true := by cases k0 <;> simp [Tok.num] at z0 ⊢
  exact ⟨_, rfl, .unary, 0, _, Reads.atom 0 .true, rfl, fun _ => rfl, fun _ => nofun, fun _ => nofun⟩

theorem xx_rule62 {p q la : Nat} {ts : List Tok} {us : List PVal} (hc : Chain Tok.num xxCert XM p [32] ts la us q) :
    ∃ v, xxAction 62 us = .ok v ∧ XM p 59 ts la v := by
  obtain ⟨v0, w0, t0, r0, q0, rfl, rfl, m0, e0, y0, rfl, rfl, rfl⟩ := hc
  obtain ⟨k0, rfl, z0, rfl⟩ : ∃ k, t0 = [k] ∧ Tok.num k = 32 ∧ v0 = k.val := m0
  obtain rfl : k0 = .false := by cases k0 <;> simp [Tok.num] at z0 ⊢
  exact ⟨_, rfl, .unary, 0, _, Reads.atom 0 .false, rfl, fun _ => rfl, fun _ => nofun, fun _ => nofun⟩

theorem xx_rule63 {p q la : Nat} {ts : List Tok} {us : List PVal} (hc : Chain Tok.num xxCert XM p [61] ts la us q) :
    ∃ v, xxAction 63 us = .ok v ∧ XM p 60 ts la v := by
  obtain ⟨v0, w0, t0, r0, q0, rfl, rfl, m0, e0, y0, rfl, rfl, rfl⟩ := hc
  obtain ⟨n0, h0, rfl⟩ : ∃ a, ReadsAtom t0 a ∧ v0 = PVal.node (.leaf a) := m0
  exact ⟨_, rfl, _, by simpa using h0, rfl⟩

theorem xx_rule64 {p q la : Nat} {ts : List Tok} {us : List PVal} (hc : Chain Tok.num xxCert XM p [62] ts la us q) :
    ∃ v, xxAction 64 us = .ok v ∧ XM p 60 ts la v := by
  obtain ⟨v0, w0, t0, r0, q0, rfl, rfl, m0, e0, y0, rfl, rfl, rfl⟩ := hc
  obtain ⟨n0, h0, rfl⟩ : ∃ a, ReadsAtom t0 a ∧ v0 = PVal.node (.leaf a) := m0
  exact ⟨_, rfl, _, by simpa using h0, rfl⟩

theorem xx_rule65 {p q la : Nat} {ts : List Tok} {us : List PVal} (hc : Chain Tok.num xxCert XM p [63] ts la us q) :
    ∃ v, xxAction 65 us = .ok v ∧ XM p 60 ts la v := by
  obtain ⟨v0, w0, t0, r0, q0, rfl, rfl, m0, e0, y0, rfl, rfl, rfl⟩ := hc
  obtain ⟨n0, h0, rfl⟩ : ∃ a, ReadsAtom t0 a ∧ v0 = PVal.node (.leaf a) := m0
  exact ⟨_, rfl, _, by simpa using h0, rfl⟩

theorem xx_rule66 {p q la : Nat} {ts : List Tok} {us : List PVal} (hc : Chain Tok.num xxCert XM p [64] ts la us q) :
    ∃ v, xxAction 66 us = .ok v ∧ XM p 60 ts la v := by
  obtain ⟨v0, w0, t0, r0, q0, rfl, rfl, m0, e0, y0, rfl, rfl, rfl⟩ := hc
  obtain ⟨n0, h0, rfl⟩ : ∃ a, ReadsAtom t0 a ∧ v0 = PVal.node (.leaf a) := m0
  exact ⟨_, rfl, _, by simpa using h0, rfl⟩

theorem xx_rule67 {p q la : Nat} {ts : List Tok} {us : List PVal} (hc : Chain Tok.num xxCert XM p [21, 10, 33, 12, 42, 12, 40, 12, 40, 11] ts la us q) :
    ∃ v, xxAction 67 us = .ok v ∧ XM p 61 ts la v := by
  obtain ⟨v0, w0, t0, r0, q0, rfl, rfl, m0, e0, y0, v1, w1, t1, r1, q1, rfl, rfl, m1, e1, y1, v2, w2, t2, r2, q2, rfl, rfl, m2, e2, y2, v3, w3, t3, r3, q3, rfl, rfl, m3, e3, y3, v4, w4, t4, r4, q4, rfl, rfl, m4, e4, y4, v5, w5, t5, r5, q5, rfl, rfl, m5, e5, y5, v6, w6, t6, r6, q6, rfl, rfl, m6, e6, y6, v7, w7, t7, r7, q7, rfl, rfl, m7, e7, y7, v8, w8, t8, r8, q8, rfl, rfl, m8, e8, y8, v9, w9, t9, r9, q9, rfl, rfl, m9, e9, y9, rfl, rfl, rfl⟩ := hc
  obtain ⟨k0, rfl, z0, rfl⟩ : ∃ k, t0 = [k] ∧ Tok.num k = 21 ∧ v0 = k.val := m0
  obtain rfl : k0 = .withinFrequencyCap := by cases k0 <;> simp [Tok.num] at z0 ⊢
  obtain ⟨k1, rfl, z1, rfl⟩ : ∃ k, t1 = [k] ∧ Tok.num k = 10 ∧ v1 = k.val := m1
  obtain rfl : k1 = .lparen := by cases k1 <;> simp [Tok.num] at z1 ⊢
  obtain ⟨k2, rfl, z2, rfl⟩ : ∃ k, t2 = [k] ∧ Tok.num k = 33 ∧ v2 = k.val := m2
  obtain ⟨x2, rfl⟩ : ∃ x, k2 = .string x := by cases k2 <;> simp [Tok.num] at z2 ⊢
  obtain ⟨k3, rfl, z3, rfl⟩ : ∃ k, t3 = [k] ∧ Tok.num k = 12 ∧ v3 = k.val := m3
  obtain rfl : k3 = .comma := by cases k3 <;> simp [Tok.num] at z3 ⊢
  obtain ⟨s4, rfl, rfl⟩ : ∃ s, t4 = [Tok.string s] ∧ v4 = PVal.strVal (quoted s) := m4
  obtain ⟨k5, rfl, z5, rfl⟩ : ∃ k, t5 = [k] ∧ Tok.num k = 12 ∧ v5 = k.val := m5
  obtain rfl : k5 = .comma := by cases k5 <;> simp [Tok.num] at z5 ⊢
  obtain ⟨n6, h6, rfl⟩ : ∃ n, ReadsInt t6 n ∧ v6 = PVal.int n := m6
  obtain ⟨k7, rfl, z7, rfl⟩ : ∃ k, t7 = [k] ∧ Tok.num k = 12 ∧ v7 = k.val := m7
  obtain rfl : k7 = .comma := by cases k7 <;> simp [Tok.num] at z7 ⊢
  obtain ⟨n8, h8, rfl⟩ : ∃ n, ReadsInt t8 n ∧ v8 = PVal.int n := m8
  obtain ⟨k9, rfl, z9, rfl⟩ : ∃ k, t9 = [k] ∧ Tok.num k = 11 ∧ v9 = k.val := m9
  obtain rfl : k9 = .rparen := by cases k9 <;> simp [Tok.num] at z9 ⊢
  exact ⟨_, rfl, _, atomOf (ReadsAtom.freq x2 s4 (capType_of x2) h6 h8) (by simp), rfl⟩

theorem xx_rule68 {p q la : Nat} {ts : List Tok} {us : List PVal} (hc : Chain Tok.num xxCert XM p [22, 10, 40, 12, 40, 11] ts la us q) :
    ∃ v, xxAction 68 us = .ok v ∧ XM p 62 ts la v := by
  obtain ⟨v0, w0, t0, r0, q0, rfl, rfl, m0, e0, y0, v1, w1, t1, r1, q1, rfl, rfl, m1, e1, y1, v2, w2, t2, r2, q2, rfl, rfl, m2, e2, y2, v3, w3, t3, r3, q3, rfl, rfl, m3, e3, y3, v4, w4, t4, r4, q4, rfl, rfl, m4, e4, y4, v5, w5, t5, r5, q5, rfl, rfl, m5, e5, y5, rfl, rfl, rfl⟩ := hc
  obtain ⟨k0, rfl, z0, rfl⟩ : ∃ k, t0 = [k] ∧ Tok.num k = 22 ∧ v0 = k.val := m0
  obtain rfl : k0 = .segmentWithin := by cases k0 <;> simp [Tok.num] at z0 ⊢
  obtain ⟨k1, rfl, z1, rfl⟩ : ∃ k, t1 = [k] ∧ Tok.num k = 10 ∧ v1 = k.val := m1
  obtain rfl : k1 = .lparen := by cases k1 <;> simp [Tok.num] at z1 ⊢
  obtain ⟨n2, h2, rfl⟩ : ∃ n, ReadsInt t2 n ∧ v2 = PVal.int n := m2
  obtain ⟨k3, rfl, z3, rfl⟩ : ∃ k, t3 = [k] ∧ Tok.num k = 12 ∧ v3 = k.val := m3
  obtain rfl : k3 = .comma := by cases k3 <;> simp [Tok.num] at z3 ⊢
  obtain ⟨n4, h4, rfl⟩ : ∃ n, ReadsInt t4 n ∧ v4 = PVal.int n := m4
  obtain ⟨k5, rfl, z5, rfl⟩ : ∃ k, t5 = [k] ∧ Tok.num k = 11 ∧ v5 = k.val := m5
  obtain rfl : k5 = .rparen := by cases k5 <;> simp [Tok.num] at z5 ⊢
  exact ⟨_, rfl, _, atomOf (ReadsAtom.segment .within h2 h4) (by simp), rfl⟩

theorem xx_rule69 {p q la : Nat} {ts : List Tok} {us : List PVal} (hc : Chain Tok.num xxCert XM p [22, 10, 39, 12, 40, 12, 40, 11] ts la us q) :
    ∃ v, xxAction 69 us = .ok v ∧ XM p 62 ts la v := by
  obtain ⟨v0, w0, t0, r0, q0, rfl, rfl, m0, e0, y0, v1, w1, t1, r1, q1, rfl, rfl, m1, e1, y1, v2, w2, t2, r2, q2, rfl, rfl, m2, e2, y2, v3, w3, t3, r3, q3, rfl, rfl, m3, e3, y3, v4, w4, t4, r4, q4, rfl, rfl, m4, e4, y4, v5, w5, t5, r5, q5, rfl, rfl, m5, e5, y5, v6, w6, t6, r6, q6, rfl, rfl, m6, e6, y6, v7, w7, t7, r7, q7, rfl, rfl, m7, e7, y7, rfl, rfl, rfl⟩ := hc
  obtain ⟨k0, rfl, z0, rfl⟩ : ∃ k, t0 = [k] ∧ Tok.num k = 22 ∧ v0 = k.val := m0
  obtain rfl : k0 = .segmentWithin := by cases k0 <;> simp [Tok.num] at z0 ⊢
  obtain ⟨k1, rfl, z1, rfl⟩ : ∃ k, t1 = [k] ∧ Tok.num k = 10 ∧ v1 = k.val := m1
  obtain rfl : k1 = .lparen := by cases k1 <;> simp [Tok.num] at z1 ⊢
  obtain ⟨x2, rfl, rfl⟩ : ∃ x, t2 = [Tok.ident x] ∧ v2 = PVal.string x := m2
  obtain ⟨k3, rfl, z3, rfl⟩ : ∃ k, t3 = [k] ∧ Tok.num k = 12 ∧ v3 = k.val := m3
  obtain rfl : k3 = .comma := by cases k3 <;> simp [Tok.num] at z3 ⊢
  obtain ⟨n4, h4, rfl⟩ : ∃ n, ReadsInt t4 n ∧ v4 = PVal.int n := m4
  obtain ⟨k5, rfl, z5, rfl⟩ : ∃ k, t5 = [k] ∧ Tok.num k = 12 ∧ v5 = k.val := m5
  obtain rfl : k5 = .comma := by cases k5 <;> simp [Tok.num] at z5 ⊢
  obtain ⟨n6, h6, rfl⟩ : ∃ n, ReadsInt t6 n ∧ v6 = PVal.int n := m6
  obtain ⟨k7, rfl, z7, rfl⟩ : ∃ k, t7 = [k] ∧ Tok.num k = 11 ∧ v7 = k.val := m7
  obtain rfl : k7 = .rparen := by cases k7 <;> simp [Tok.num] at z7 ⊢
  exact ⟨_, rfl, _, atomOf (ReadsAtom.segmentVar x2 .within h4 h6) (by simp), rfl⟩

theorem xx_rule70 {p q la : Nat} {ts : List Tok} {us : List PVal} (hc : Chain Tok.num xxCert XM p [23, 10, 40, 12, 40, 11] ts la us q) :
    ∃ v, xxAction 70 us = .ok v ∧ XM p 62 ts la v := by
  obtain ⟨v0, w0, t0, r0, q0, rfl, rfl, m0, e0, y0, v1, w1, t1, r1, q1, rfl, rfl, m1, e1, y1, v2, w2, t2, r2, q2, rfl, rfl, m2, e2, y2, v3, w3, t3, r3, q3, rfl, rfl, m3, e3, y3, v4, w4, t4, r4, q4, rfl, rfl, m4, e4, y4, v5, w5, t5, r5, q5, rfl, rfl, m5, e5, y5, rfl, rfl, rfl⟩ := hc
  obtain ⟨k0, rfl, z0, rfl⟩ : ∃ k, t0 = [k] ∧ Tok.num k = 23 ∧ v0 = k.val := m0
  obtain rfl : k0 = .segmentBefore := by cases k0 <;> simp [Tok.num] at z0 ⊢
  obtain ⟨k1, rfl, z1, rfl⟩ : ∃ k, t1 = [k] ∧ Tok.num k = 10 ∧ v1 = k.val := m1
  obtain rfl : k1 = .lparen := by cases k1 <;> simp [Tok.num] at z1 ⊢
  obtain ⟨n2, h2, rfl⟩ : ∃ n, ReadsInt t2 n ∧ v2 = PVal.int n := m2
  obtain ⟨k3, rfl, z3, rfl⟩ : ∃ k, t3 = [k] ∧ Tok.num k = 12 ∧ v3 = k.val := m3
  obtain rfl : k3 = .comma := by cases k3 <;> simp [Tok.num] at z3 ⊢
  obtain ⟨n4, h4, rfl⟩ : ∃ n, ReadsInt t4 n ∧ v4 = PVal.int n := m4
  obtain ⟨k5, rfl, z5, rfl⟩ : ∃ k, t5 = [k] ∧ Tok.num k = 11 ∧ v5 = k.val := m5
  obtain rfl : k5 = .rparen := by cases k5 <;> simp [Tok.num] at z5 ⊢
  exact ⟨_, rfl, _, atomOf (ReadsAtom.segment .before h2 h4) (by simp), rfl⟩

theorem xx_rule71 {p q la : Nat} {ts : List Tok} {us : List PVal} (hc : Chain Tok.num xxCert XM p [23, 10, 39, 12, 40, 12, 40, 11] ts la us q) :
    ∃ v, xxAction 71 us = .ok v ∧ XM p 62 ts la v := by
  obtain ⟨v0, w0, t0, r0, q0, rfl, rfl, m0, e0, y0, v1, w1, t1, r1, q1, rfl, rfl, m1, e1, y1, v2, w2, t2, r2, q2, rfl, rfl, m2, e2, y2, v3, w3, t3, r3, q3, rfl, rfl, m3, e3, y3, v4, w4, t4, r4, q4, rfl, rfl, m4, e4, y4, v5, w5, t5, r5, q5, rfl, rfl, m5, e5, y5, v6, w6, t6, r6, q6, rfl, rfl, m6, e6, y6, v7, w7, t7, r7, q7, rfl, rfl, m7, e7, y7, rfl, rfl, rfl⟩ := hc
  obtain ⟨k0, rfl, z0, rfl⟩ : ∃ k, t0 = [k] ∧ Tok.num k = 23 ∧ v0 = k.val := m0
  obtain rfl : k0 = .segmentBefore := by cases k0 <;> simp [Tok.num] at z0 ⊢
  obtain ⟨k1, rfl, z1, rfl⟩ : ∃ k, t1 = [k] ∧ Tok.num k = 10 ∧ v1 = k.val := m1
  obtain rfl : k1 = .lparen := by cases k1 <;> simp [Tok.num] at z1 ⊢
  obtain ⟨x2, rfl, rfl⟩ : ∃ x, t2 = [Tok.ident x] ∧ v2 = PVal.string x := m2
  obtain ⟨k3, rfl, z3, rfl⟩ : ∃ k, t3 = [k] ∧ Tok.num k = 12 ∧ v3 = k.val := m3
  obtain rfl : k3 = .comma := by cases k3 <;> simp [Tok.num] at z3 ⊢
  obtain ⟨n4, h4, rfl⟩ : ∃ n, ReadsInt t4 n ∧ v4 = PVal.int n := m4
  obtain ⟨k5, rfl, z5, rfl⟩ : ∃ k, t5 = [k] ∧ Tok.num k = 12 ∧ v5 = k.val := m5
  obtain rfl : k5 = .comma := by cases k5 <;> simp [Tok.num] at z5 ⊢
  obtain ⟨n6, h6, rfl⟩ : ∃ n, ReadsInt t6 n ∧ v6 = PVal.int n := m6
  obtain ⟨k7, rfl, z7, rfl⟩ : ∃ k, t7 = [k] ∧ Tok.num k = 11 ∧ v7 = k.val := m7
  obtain rfl : k7 = .rparen := by cases k7 <;> simp [Tok.num] at z7 ⊢
  exact ⟨_, rfl, _, atomOf (ReadsAtom.segmentVar x2 .before h4 h6) (by simp), rfl⟩

theorem xx_rule72 {p q la : Nat} {ts : List Tok} {us : List PVal} (hc : Chain Tok.num xxCert XM p [24, 10, 40, 12, 40, 12, 40, 11] ts la us q) :
    ∃ v, xxAction 72 us = .ok v ∧ XM p 63 ts la v := by
  obtain ⟨v0, w0, t0, r0, q0, rfl, rfl, m0, e0, y0, v1, w1, t1, r1, q1, rfl, rfl, m1, e1, y1, v2, w2, t2, r2, q2, rfl, rfl, m2, e2, y2, v3, w3, t3, r3, q3, rfl, rfl, m3, e3, y3, v4, w4, t4, r4, q4, rfl, rfl, m4, e4, y4, v5, w5, t5, r5, q5, rfl, rfl, m5, e5, y5, v6, w6, t6, r6, q6, rfl, rfl, m6, e6, y6, v7, w7, t7, r7, q7, rfl, rfl, m7, e7, y7, rfl, rfl, rfl⟩ := hc
  obtain ⟨k0, rfl, z0, rfl⟩ : ∃ k, t0 = [k] ∧ Tok.num k = 24 ∧ v0 = k.val := m0
  obtain rfl : k0 = .geoWithinRadius := by cases k0 <;> simp [Tok.num] at z0 ⊢
  obtain ⟨k1, rfl, z1, rfl⟩ : ∃ k, t1 = [k] ∧ Tok.num k = 10 ∧ v1 = k.val := m1
  obtain rfl : k1 = .lparen := by cases k1 <;> simp [Tok.num] at z1 ⊢
  obtain ⟨n2, h2, rfl⟩ : ∃ n, ReadsInt t2 n ∧ v2 = PVal.int n := m2
  obtain ⟨k3, rfl, z3, rfl⟩ : ∃ k, t3 = [k] ∧ Tok.num k = 12 ∧ v3 = k.val := m3
  obtain rfl : k3 = .comma := by cases k3 <;> simp [Tok.num] at z3 ⊢
  obtain ⟨n4, h4, rfl⟩ : ∃ n, ReadsInt t4 n ∧ v4 = PVal.int n := m4
  obtain ⟨k5, rfl, z5, rfl⟩ : ∃ k, t5 = [k] ∧ Tok.num k = 12 ∧ v5 = k.val := m5
  obtain rfl : k5 = .comma := by cases k5 <;> simp [Tok.num] at z5 ⊢
  obtain ⟨n6, h6, rfl⟩ : ∃ n, ReadsInt t6 n ∧ v6 = PVal.int n := m6
  obtain ⟨k7, rfl, z7, rfl⟩ : ∃ k, t7 = [k] ∧ Tok.num k = 11 ∧ v7 = k.val := m7
  obtain rfl : k7 = .rparen := by cases k7 <;> simp [Tok.num] at z7 ⊢
  exact ⟨_, rfl, _, atomOf (ReadsAtom.geoInt h2 h4 h6) (by simp), rfl⟩

theorem xx_rule73 {p q la : Nat} {ts : List Tok} {us : List PVal} (hc : Chain Tok.num xxCert XM p [24, 10, 41, 12, 41, 12, 41, 11] ts la us q) :
    ∃ v, xxAction 73 us = .ok v ∧ XM p 63 ts la v := by
  obtain ⟨v0, w0, t0, r0, q0, rfl, rfl, m0, e0, y0, v1, w1, t1, r1, q1, rfl, rfl, m1, e1, y1, v2, w2, t2, r2, q2, rfl, rfl, m2, e2, y2, v3, w3, t3, r3, q3, rfl, rfl, m3, e3, y3, v4, w4, t4, r4, q4, rfl, rfl, m4, e4, y4, v5, w5, t5, r5, q5, rfl, rfl, m5, e5, y5, v6, w6, t6, r6, q6, rfl, rfl, m6, e6, y6, v7, w7, t7, r7, q7, rfl, rfl, m7, e7, y7, rfl, rfl, rfl⟩ := hc
  obtain ⟨k0, rfl, z0, rfl⟩ : ∃ k, t0 = [k] ∧ Tok.num k = 24 ∧ v0 = k.val := m0
  obtain rfl : k0 = .geoWithinRadius := by cases k0 <;> simp [Tok.num] at z0 ⊢
  obtain ⟨k1, rfl, z1, rfl⟩ : ∃ k, t1 = [k] ∧ Tok.num k = 10 ∧ v1 = k.val := m1
  obtain rfl : k1 = .lparen := by cases k1 <;> simp [Tok.num] at z1 ⊢
  obtain ⟨n2, h2, rfl⟩ : ∃ n, ReadsFloat t2 n ∧ v2 = PVal.float n := m2
  obtain ⟨k3, rfl, z3, rfl⟩ : ∃ k, t3 = [k] ∧ Tok.num k = 12 ∧ v3 = k.val := m3
  obtain rfl : k3 = .comma := by cases k3 <;> simp [Tok.num] at z3 ⊢
  obtain ⟨n4, h4, rfl⟩ : ∃ n, ReadsFloat t4 n ∧ v4 = PVal.float n := m4
  obtain ⟨k5, rfl, z5, rfl⟩ : ∃ k, t5 = [k] ∧ Tok.num k = 12 ∧ v5 = k.val := m5
  obtain rfl : k5 = .comma := by cases k5 <;> simp [Tok.num] at z5 ⊢
  obtain ⟨n6, h6, rfl⟩ : ∃ n, ReadsFloat t6 n ∧ v6 = PVal.float n := m6
  obtain ⟨k7, rfl, z7, rfl⟩ : ∃ k, t7 = [k] ∧ Tok.num k = 11 ∧ v7 = k.val := m7
  obtain rfl : k7 = .rparen := by cases k7 <;> simp [Tok.num] at z7 ⊢
  exact ⟨_, rfl, _, atomOf (ReadsAtom.geoFloat h2 h4 h6) (by simp), rfl⟩

theorem xx_rule74 {p q la : Nat} {ts : List Tok} {us : List PVal} (hc : Chain Tok.num xxCert XM p [25, 10, 39, 12, 42, 11] ts la us q) :
    ∃ v, xxAction 74 us = .ok v ∧ XM p 64 ts la v := by
  obtain ⟨v0, w0, t0, r0, q0, rfl, rfl, m0, e0, y0, v1, w1, t1, r1, q1, rfl, rfl, m1, e1, y1, v2, w2, t2, r2, q2, rfl, rfl, m2, e2, y2, v3, w3, t3, r3, q3, rfl, rfl, m3, e3, y3, v4, w4, t4, r4, q4, rfl, rfl, m4, e4, y4, v5, w5, t5, r5, q5, rfl, rfl, m5, e5, y5, rfl, rfl, rfl⟩ := hc
  obtain ⟨k0, rfl, z0, rfl⟩ : ∃ k, t0 = [k] ∧ Tok.num k = 25 ∧ v0 = k.val := m0
  obtain rfl : k0 = .contains := by cases k0 <;> simp [Tok.num] at z0 ⊢
  obtain ⟨k1, rfl, z1, rfl⟩ : ∃ k, t1 = [k] ∧ Tok.num k = 10 ∧ v1 = k.val := m1
  obtain rfl : k1 = .lparen := by cases k1 <;> simp [Tok.num] at z1 ⊢
  obtain ⟨x2, rfl, rfl⟩ : ∃ x, t2 = [Tok.ident x] ∧ v2 = PVal.string x := m2
  obtain ⟨k3, rfl, z3, rfl⟩ : ∃ k, t3 = [k] ∧ Tok.num k = 12 ∧ v3 = k.val := m3
  obtain rfl : k3 = .comma := by cases k3 <;> simp [Tok.num] at z3 ⊢
  obtain ⟨s4, rfl, rfl⟩ : ∃ s, t4 = [Tok.string s] ∧ v4 = PVal.strVal (quoted s) := m4
  obtain ⟨k5, rfl, z5, rfl⟩ : ∃ k, t5 = [k] ∧ Tok.num k = 11 ∧ v5 = k.val := m5
  obtain rfl : k5 = .rparen := by cases k5 <;> simp [Tok.num] at z5 ⊢
  exact ⟨_, rfl, _, atomOf (ReadsAtom.str x2 s4 .contains) (by simp), rfl⟩

theorem xx_rule75 {p q la : Nat} {ts : List Tok} {us : List PVal} (hc : Chain Tok.num xxCert XM p [26, 10, 39, 12, 42, 11] ts la us q) :
    ∃ v, xxAction 75 us = .ok v ∧ XM p 64 ts la v := by
  obtain ⟨v0, w0, t0, r0, q0, rfl, rfl, m0, e0, y0, v1, w1, t1, r1, q1, rfl, rfl, m1, e1, y1, v2, w2, t2, r2, q2, rfl, rfl, m2, e2, y2, v3, w3, t3, r3, q3, rfl, rfl, m3, e3, y3, v4, w4, t4, r4, q4, rfl, rfl, m4, e4, y4, v5, w5, t5, r5, q5, rfl, rfl, m5, e5, y5, rfl, rfl, rfl⟩ := hc
  obtain ⟨k0, rfl, z0, rfl⟩ : ∃ k, t0 = [k] ∧ Tok.num k = 26 ∧ v0 = k.val := m0
  obtain rfl : k0 = .startsWith := by cases k0 <;> simp [Tok.num] at z0 ⊢
  obtain ⟨k1, rfl, z1, rfl⟩ : ∃ k, t1 = [k] ∧ Tok.num k = 10 ∧ v1 = k.val := m1
  obtain rfl : k1 = .lparen := by cases k1 <;> simp [Tok.num] at z1 ⊢
  obtain ⟨x2, rfl, rfl⟩ : ∃ x, t2 = [Tok.ident x] ∧ v2 = PVal.string x := m2
  obtain ⟨k3, rfl, z3, rfl⟩ : ∃ k, t3 = [k] ∧ Tok.num k = 12 ∧ v3 = k.val := m3
  obtain rfl : k3 = .comma := by cases k3 <;> simp [Tok.num] at z3 ⊢
  obtain ⟨s4, rfl, rfl⟩ : ∃ s, t4 = [Tok.string s] ∧ v4 = PVal.strVal (quoted s) := m4
  obtain ⟨k5, rfl, z5, rfl⟩ : ∃ k, t5 = [k] ∧ Tok.num k = 11 ∧ v5 = k.val := m5
  obtain rfl : k5 = .rparen := by cases k5 <;> simp [Tok.num] at z5 ⊢
  exact ⟨_, rfl, _, atomOf (ReadsAtom.str x2 s4 .startsWith) (by simp), rfl⟩

theorem xx_rule76 {p q la : Nat} {ts : List Tok} {us : List PVal} (hc : Chain Tok.num xxCert XM p [27, 10, 39, 12, 42, 11] ts la us q) :
    ∃ v, xxAction 76 us = .ok v ∧ XM p 64 ts la v := by
  obtain ⟨v0, w0, t0, r0, q0, rfl, rfl, m0, e0, y0, v1, w1, t1, r1, q1, rfl, rfl, m1, e1, y1, v2, w2, t2, r2, q2, rfl, rfl, m2, e2, y2, v3, w3, t3, r3, q3, rfl, rfl, m3, e3, y3, v4, w4, t4, r4, q4, rfl, rfl, m4, e4, y4, v5, w5, t5, r5, q5, rfl, rfl, m5, e5, y5, rfl, rfl, rfl⟩ := hc
  obtain ⟨k0, rfl, z0, rfl⟩ : ∃ k, t0 = [k] ∧ Tok.num k = 27 ∧ v0 = k.val := m0
  obtain rfl : k0 = .endsWith := by cases k0 <;> simp [Tok.num] at z0 ⊢
  obtain ⟨k1, rfl, z1, rfl⟩ : ∃ k, t1 = [k] ∧ Tok.num k = 10 ∧ v1 = k.val := m1
  obtain rfl : k1 = .lparen := by cases k1 <;> simp [Tok.num] at z1 ⊢
  obtain ⟨x2, rfl, rfl⟩ : ∃ x, t2 = [Tok.ident x] ∧ v2 = PVal.string x := m2
  obtain ⟨k3, rfl, z3, rfl⟩ : ∃ k, t3 = [k] ∧ Tok.num k = 12 ∧ v3 = k.val := m3
  obtain rfl : k3 = .comma := by cases k3 <;> simp [Tok.num] at z3 ⊢
  obtain ⟨s4, rfl, rfl⟩ : ∃ s, t4 = [Tok.string s] ∧ v4 = PVal.strVal (quoted s) := m4
  obtain ⟨k5, rfl, z5, rfl⟩ : ∃ k, t5 = [k] ∧ Tok.num k = 11 ∧ v5 = k.val := m5
  obtain rfl : k5 = .rparen := by cases k5 <;> simp [Tok.num] at z5 ⊢
  exact ⟨_, rfl, _, atomOf (ReadsAtom.str x2 s4 .endsWith) (by simp), rfl⟩

theorem xx_rules (nt p q la : Nat) (ts : List Tok) (us : List PVal) : ∀ r : Nat, r ≠ 0 → r ≠ 1 →
    Chain Tok.num xxCert XM p (xxCert.rule r) ts la us q → xxTables.act q la = .reduce r → xxTables.r1[r]? = some nt →
    ∃ v, xxAction r us = .ok v ∧ XM p nt ts la v
  | 0, h, _, _, _, _ => absurd rfl h
  | 1, _, h, _, _, _ => absurd rfl h
  | 2, _, _, hc, hact, hr => by
    obtain rfl : 38 = nt := Option.some.inj hr
    exact xx_rule2 hc
  | 3, _, _, hc, hact, hr => by
    obtain rfl : 39 = nt := Option.some.inj hr
    exact xx_rule3 hc
  | 4, _, _, hc, hact, hr => by
    obtain rfl : 40 = nt := Option.some.inj hr
    exact xx_rule4 hc
  | 5, _, _, hc, hact, hr => by
    obtain rfl : 40 = nt := Option.some.inj hr
    exact xx_rule5 hc
  | 6, _, _, hc, hact, hr => by
    obtain rfl : 41 = nt := Option.some.inj hr
    exact xx_rule6 hc
  | 7, _, _, hc, hact, hr => by
    obtain rfl : 41 = nt := Option.some.inj hr
    exact xx_rule7 hc
  | 8, _, _, hc, hact, hr => by
    obtain rfl : 42 = nt := Option.some.inj hr
    exact xx_rule8 hc
  | 9, _, _, hc, hact, hr => by
    obtain rfl : 43 = nt := Option.some.inj hr
    exact xx_rule9 hc
  | 10, _, _, hc, hact, hr => by
    obtain rfl : 44 = nt := Option.some.inj hr
    exact xx_rule10 hc
  | 11, _, _, hc, hact, hr => by
    obtain rfl : 44 = nt := Option.some.inj hr
    exact xx_rule11 hc
  | 12, _, _, hc, hact, hr => by
    obtain rfl : 45 = nt := Option.some.inj hr
    exact xx_rule12 hc
  | 13, _, _, hc, hact, hr => by
    obtain rfl : 46 = nt := Option.some.inj hr
    exact xx_rule13 hc
  | 14, _, _, hc, hact, hr => by
    obtain rfl : 46 = nt := Option.some.inj hr
    exact xx_rule14 hc
  | 15, _, _, hc, hact, hr => by
    obtain rfl : 47 = nt := Option.some.inj hr
    exact xx_rule15 hc
  | 16, _, _, hc, hact, hr => by
    obtain rfl : 47 = nt := Option.some.inj hr
    exact xx_rule16 hc
  | 17, _, _, hc, hact, hr => by
    obtain rfl : 47 = nt := Option.some.inj hr
    exact xx_rule17 hc
  | 18, _, _, hc, hact, hr => by
    obtain rfl : 47 = nt := Option.some.inj hr
    exact xx_rule18 hc
  | 19, _, _, hc, hact, hr => by
    obtain rfl : 47 = nt := Option.some.inj hr
    exact xx_rule19 hc
  | 20, _, _, hc, hact, hr => by
    obtain rfl : 47 = nt := Option.some.inj hr
    exact xx_rule20 hc
  | 21, _, _, hc, hact, hr => by
    obtain rfl : 47 = nt := Option.some.inj hr
    exact xx_rule21 hc
  | 22, _, _, hc, hact, hr => by
    obtain rfl : 47 = nt := Option.some.inj hr
    exact xx_rule22 hc
  | 23, _, _, hc, hact, hr => by
    obtain rfl : 48 = nt := Option.some.inj hr
    exact xx_rule23 hc
  | 24, _, _, hc, hact, hr => by
    obtain rfl : 48 = nt := Option.some.inj hr
    exact xx_rule24 hc
  | 25, _, _, hc, hact, hr => by
    obtain rfl : 48 = nt := Option.some.inj hr
    exact xx_rule25 hc
  | 26, _, _, hc, hact, hr => by
    obtain rfl : 49 = nt := Option.some.inj hr
    exact xx_rule26 hc
  | 27, _, _, hc, hact, hr => by
    obtain rfl : 49 = nt := Option.some.inj hr
    exact xx_rule27 hc
  | 28, _, _, hc, hact, hr => by
    obtain rfl : 50 = nt := Option.some.inj hr
    exact xx_rule28 hc
  | 29, _, _, hc, hact, hr => by
    obtain rfl : 50 = nt := Option.some.inj hr
    exact xx_rule29 hc
  | 30, _, _, hc, hact, hr => by
    obtain rfl : 50 = nt := Option.some.inj hr
    exact xx_rule30 hc
  | 31, _, _, hc, hact, hr => by
    obtain rfl : 50 = nt := Option.some.inj hr
    exact xx_rule31 hc
  | 32, _, _, hc, hact, hr => by
    obtain rfl : 50 = nt := Option.some.inj hr
    exact xx_rule32 hc
  | 33, _, _, hc, hact, hr => by
    obtain rfl : 50 = nt := Option.some.inj hr
    exact xx_rule33 hc
  | 34, _, _, hc, hact, hr => by
    obtain rfl : 50 = nt := Option.some.inj hr
    exact xx_rule34 hc
  | 35, _, _, hc, hact, hr => by
    obtain rfl : 50 = nt := Option.some.inj hr
    exact xx_rule35 hc
  | 36, _, _, hc, hact, hr => by
    obtain rfl : 51 = nt := Option.some.inj hr
    exact xx_rule36 hc
  | 37, _, _, hc, hact, hr => by
    obtain rfl : 51 = nt := Option.some.inj hr
    exact xx_rule37 hc
  | 38, _, _, hc, hact, hr => by
    obtain rfl : 51 = nt := Option.some.inj hr
    exact xx_rule38 hc
  | 39, _, _, hc, hact, hr => by
    obtain rfl : 52 = nt := Option.some.inj hr
    exact xx_rule39 hc
  | 40, _, _, hc, hact, hr => by
    obtain rfl : 52 = nt := Option.some.inj hr
    exact xx_rule40 hc
  | 41, _, _, hc, hact, hr => by
    obtain rfl : 52 = nt := Option.some.inj hr
    exact xx_rule41 hc
  | 42, _, _, hc, hact, hr => by
    obtain rfl : 52 = nt := Option.some.inj hr
    exact xx_rule42 hc
  | 43, _, _, hc, hact, hr => by
    obtain rfl : 53 = nt := Option.some.inj hr
    exact xx_rule43 hc
  | 44, _, _, hc, hact, hr => by
    obtain rfl : 54 = nt := Option.some.inj hr
    exact xx_rule44 hc
  | 45, _, _, hc, hact, hr => by
    obtain rfl : 54 = nt := Option.some.inj hr
    exact xx_rule45 hc
  | 46, _, _, hc, hact, hr => by
    obtain rfl : 54 = nt := Option.some.inj hr
    exact xx_rule46 hc
  | 47, _, _, hc, hact, hr => by
    obtain rfl : 55 = nt := Option.some.inj hr
    exact xx_rule47 hc
  | 48, _, _, hc, hact, hr => by
    obtain rfl : 55 = nt := Option.some.inj hr
    exact xx_rule48 hc
  | 49, _, _, hc, hact, hr => by
    obtain rfl : 55 = nt := Option.some.inj hr
    exact xx_rule49 hc
  | 50, _, _, hc, hact, hr => by
    obtain rfl : 56 = nt := Option.some.inj hr
    exact xx_rule50 hc
  | 51, _, _, hc, hact, hr => by
    obtain rfl : 56 = nt := Option.some.inj hr
    exact xx_rule51 hc
  | 52, _, _, hc, hact, hr => by
    obtain rfl : 57 = nt := Option.some.inj hr
    exact xx_rule52 hc
  | 53, _, _, hc, hact, hr => by
    obtain rfl : 57 = nt := Option.some.inj hr
    exact xx_rule53 hc
  | 54, _, _, hc, hact, hr => by
    obtain rfl : 58 = nt := Option.some.inj hr
    exact xx_rule54 hc
  | 55, _, _, hc, hact, hr => by
    obtain rfl : 58 = nt := Option.some.inj hr
    exact xx_rule55 hc
  | 56, _, _, hc, hact, hr => by
    obtain rfl : 58 = nt := Option.some.inj hr
    exact xx_rule56 hc
  | 57, _, _, hc, hact, hr => by
    obtain rfl : 59 = nt := Option.some.inj hr
    exact xx_rule57 hc
  | 58, _, _, hc, hact, hr => by
    obtain rfl : 59 = nt := Option.some.inj hr
    exact xx_rule58 hc hact
  | 59, _, _, hc, hact, hr => by
    obtain rfl : 59 = nt := Option.some.inj hr
    exact xx_rule59 hc
  | 60, _, _, hc, hact, hr => by
    obtain rfl : 59 = nt := Option.some.inj hr
    exact xx_rule60 hc
  | 61, _, _, hc, hact, hr => by
    obtain rfl : 59 = nt := Option.some.inj hr
    exact xx_rule61 hc
  | 62, _, _, hc, hact, hr => by
    obtain rfl : 59 = nt := Option.some.inj hr
    exact xx_rule62 hc
  | 63, _, _, hc, hact, hr => by
    obtain rfl : 60 = nt := Option.some.inj hr
    exact xx_rule63 hc
  | 64, _, _, hc, hact, hr => by
    obtain rfl : 60 = nt := Option.some.inj hr
    exact xx_rule64 hc
  | 65, _, _, hc, hact, hr => by
    obtain rfl : 60 = nt := Option.some.inj hr
    exact xx_rule65 hc
  | 66, _, _, hc, hact, hr => by
    obtain rfl : 60 = nt := Option.some.inj hr
    exact xx_rule66 hc
  | 67, _, _, hc, hact, hr => by
    obtain rfl : 61 = nt := Option.some.inj hr
    exact xx_rule67 hc
  | 68, _, _, hc, hact, hr => by
    obtain rfl : 62 = nt := Option.some.inj hr
    exact xx_rule68 hc
  | 69, _, _, hc, hact, hr => by
    obtain rfl : 62 = nt := Option.some.inj hr
    exact xx_rule69 hc
  | 70, _, _, hc, hact, hr => by
    obtain rfl : 62 = nt := Option.some.inj hr
    exact xx_rule70 hc
  | 71, _, _, hc, hact, hr => by
    obtain rfl : 62 = nt := Option.some.inj hr
    exact xx_rule71 hc
  | 72, _, _, hc, hact, hr => by
    obtain rfl : 63 = nt := Option.some.inj hr
    exact xx_rule72 hc
  | 73, _, _, hc, hact, hr => by
    obtain rfl : 63 = nt := Option.some.inj hr
    exact xx_rule73 hc
  | 74, _, _, hc, hact, hr => by
    obtain rfl : 64 = nt := Option.some.inj hr
    exact xx_rule74 hc
  | 75, _, _, hc, hact, hr => by
    obtain rfl : 64 = nt := Option.some.inj hr
    exact xx_rule75 hc
  | 76, _, _, hc, hact, hr => by
    obtain rfl : 64 = nt := Option.some.inj hr
    exact xx_rule76 hc
  | r + 77, _, _, _, _, hr => by
    have h : xxTables.r1.length = 77 := rfl
    rw [List.getElem?_eq_none (by omega)] at hr
    cases hr

theorem xx_closed : Closed xxTables xxCert Tok.num Tok.val .token xxAction XM where
  tok p t la := by cases t <;> exact ⟨_, rfl, rfl, rfl⟩
  eof p la := ⟨rfl, rfl⟩
  eof_inv p ts la v h := h.1
  num_pos t := by cases t <;> simp [Tok.num]
  num_lt t := by
    have : xxTables.ntokens = 37 := rfl
    cases t <;> simp [Tok.num, this]
  pos := by decide
  rule r p ts la us q nt h0 hq hc ha hr := by
    by_cases h1 : r = 1
    · subst h1
      obtain ⟨v0, w0, t0, r0, q0, rfl, rfl, m0, e0, y0, v1, w1, t1, r1, q1, rfl, rfl, m1, e1, y1, rfl, rfl, rfl⟩ := hc
      exact absurd (xx_after_eof y1) hq
    · exact xx_rules nt p q la ts us r h0 h1 hc ha hr

end BeTree
