import Verif.Lemmas.ZzCert
import Verif.Lemmas.XxSound
import Verif.Spec.EventSyntax
/-
What the event parser accepts is in the grammar: `ZM` describes, for every symbol, the tokens read and the value built, and every rule
keeps it.
-/
namespace BeTree

theorem capOf {ts ts' a} (h : EvCap ts a) (e : ts = ts') : EvCap ts' a := e ▸ h

/-- what each symbol stands for -/
def ZM (_p X : Nat) (ts : List ETok) (_la : Nat) (v : EPVal) : Prop :=
  match X with
  | 0 => ts = [] ∧ v = .token
  | 17 => ∃ l, EvEvent ts l ∧ v = EPVal.event l
  | 18 => ∃ l, EvMany EvVar ts l ∧ v = EPVal.event (l.filterMap id)
  | 19 => ∃ o, EvVar ts o ∧ v = EPVal.variable o
  | 20 => ∃ x, EvValue ts x ∧ v = EPVal.value x
  | 21 => ∃ b : Bool, EvValue ts (.bool b) ∧ v = EPVal.bool b
  | 22 => ∃ n, EvInt ts n ∧ v = EPVal.int n
  | 23 => ∃ n, EvFloat ts n ∧ v = EPVal.float n
  | 24 => ∃ s, ts = [ETok.string s] ∧ v = EPVal.strVal (quoted s)
  | 25 => ts = [ETok.lsquare, ETok.rsquare] ∧ v = EPVal.ints []
  | 26 => ∃ u l, EvMany EvInt u l ∧ ts = ETok.lsquare :: u ++ [ETok.rsquare] ∧ v = EPVal.ints l
  | 27 => ∃ l, EvMany EvInt ts l ∧ v = EPVal.ints l
  | 28 => ∃ u l, EvMany EvStr u l ∧ ts = ETok.lsquare :: u ++ [ETok.rsquare] ∧ v = EPVal.strs l
  | 29 => ∃ l, EvMany EvStr ts l ∧ v = EPVal.strs l
  | 30 => ∃ u l, EvMany EvSeg u l ∧ ts = ETok.lsquare :: u ++ [ETok.rsquare] ∧ v = EPVal.segs l
  | 31 => ∃ l, EvMany EvSeg ts l ∧ v = EPVal.segs l
  | 32 => ∃ s, EvSeg ts s ∧ v = EPVal.seg s
  | 33 => ∃ u l, EvMany EvCap u l ∧ ts = ETok.lsquare :: u ++ [ETok.rsquare] ∧ v = EPVal.caps l
  | 34 => ∃ l, EvMany EvCap ts l ∧ v = EPVal.caps l
  | 35 => ∃ c, EvCap ts c ∧ v = EPVal.cap c
  | X => ∃ k : ETok, ts = [k] ∧ k.num = X ∧ v = k.val

set_option maxRecDepth 100000 in
theorem zz_state_of_sym : ∀ s < 83, zzCert.sym s = 0 → s = 7 := by decide +kernel

theorem zz_after_eof {s : Nat} (h : zzCert.sym s = 0) : s = 7 := by
  by_cases hs : s < 83
  · exact zz_state_of_sym s hs h
  · have h2 : zzCert.stos.length = 83 := by decide +kernel
    simp only [LRCert.sym, List.getD_eq_getElem?_getD] at h
    rw [List.getElem?_eq_none (by omega)] at h
    cases h

theorem zz_rule2 {p q la : Nat} {ts : List ETok} {us : List EPVal} (hc : Chain ETok.num zzCert ZM p [3, 4] ts la us q) :
    ∃ v, zzAction 2 us = .ok v ∧ ZM p 17 ts la v := by
  obtain ⟨v0, w0, t0, r0, q0, rfl, rfl, m0, e0, y0, v1, w1, t1, r1, q1, rfl, rfl, m1, e1, y1, rfl, rfl, rfl⟩ := hc
  obtain ⟨k0, rfl, z0, rfl⟩ : ∃ k, t0 = [k] ∧ ETok.num k = 3 ∧ v0 = k.val := m0
  obtain rfl : k0 = .lcurly := by cases k0 <;> simp [ETok.num] at z0 ⊢
  obtain ⟨k1, rfl, z1, rfl⟩ : ∃ k, t1 = [k] ∧ ETok.num k = 4 ∧ v1 = k.val := m1
  obtain rfl : k1 = .rcurly := by cases k1 <;> simp [ETok.num] at z1 ⊢
  exact ⟨_, rfl, _, EvEvent.empty, rfl⟩

theorem zz_rule3 {p q la : Nat} {ts : List ETok} {us : List EPVal} (hc : Chain ETok.num zzCert ZM p [3, 18, 4] ts la us q) :
    ∃ v, zzAction 3 us = .ok v ∧ ZM p 17 ts la v := by
  obtain ⟨v0, w0, t0, r0, q0, rfl, rfl, m0, e0, y0, v1, w1, t1, r1, q1, rfl, rfl, m1, e1, y1, v2, w2, t2, r2, q2, rfl, rfl, m2, e2, y2, rfl, rfl, rfl⟩ := hc
  obtain ⟨k0, rfl, z0, rfl⟩ : ∃ k, t0 = [k] ∧ ETok.num k = 3 ∧ v0 = k.val := m0
  obtain rfl : k0 = .lcurly := by cases k0 <;> simp [ETok.num] at z0 ⊢
  obtain ⟨n1, h1, rfl⟩ : ∃ l, EvMany EvVar t1 l ∧ v1 = EPVal.event (l.filterMap id) := m1
  obtain ⟨k2, rfl, z2, rfl⟩ : ∃ k, t2 = [k] ∧ ETok.num k = 4 ∧ v2 = k.val := m2
  obtain rfl : k2 = .rcurly := by cases k2 <;> simp [ETok.num] at z2 ⊢
  exact ⟨_, rfl, _, by simpa using EvEvent.vars h1, rfl⟩

theorem zz_rule4 {p q la : Nat} {ts : List ETok} {us : List EPVal} (hc : Chain ETok.num zzCert ZM p [19] ts la us q) :
    ∃ v, zzAction 4 us = .ok v ∧ ZM p 18 ts la v := by
  obtain ⟨v0, w0, t0, r0, q0, rfl, rfl, m0, e0, y0, rfl, rfl, rfl⟩ := hc
  obtain ⟨n0, h0, rfl⟩ : ∃ o, EvVar t0 o ∧ v0 = EPVal.variable o := m0
  exact ⟨_, rfl, [n0], by simpa using EvMany.one h0, by cases n0 <;> rfl⟩

theorem zz_rule5 {p q la : Nat} {ts : List ETok} {us : List EPVal} (hc : Chain ETok.num zzCert ZM p [18, 7, 19] ts la us q) :
    ∃ v, zzAction 5 us = .ok v ∧ ZM p 18 ts la v := by
  obtain ⟨v0, w0, t0, r0, q0, rfl, rfl, m0, e0, y0, v1, w1, t1, r1, q1, rfl, rfl, m1, e1, y1, v2, w2, t2, r2, q2, rfl, rfl, m2, e2, y2, rfl, rfl, rfl⟩ := hc
  obtain ⟨n0, h0, rfl⟩ : ∃ l, EvMany EvVar t0 l ∧ v0 = EPVal.event (l.filterMap id) := m0
  obtain ⟨k1, rfl, z1, rfl⟩ : ∃ k, t1 = [k] ∧ ETok.num k = 7 ∧ v1 = k.val := m1
  obtain rfl : k1 = .comma := by cases k1 <;> simp [ETok.num] at z1 ⊢
  obtain ⟨n2, h2, rfl⟩ : ∃ o, EvVar t2 o ∧ v2 = EPVal.variable o := m2
  exact ⟨_, rfl, n0 ++ [n2], by simpa using EvMany.more h0 h2, by cases n2 <;> simp [addVariable]⟩

theorem zz_rule6 {p q la : Nat} {ts : List ETok} {us : List EPVal} (hc : Chain ETok.num zzCert ZM p [15, 8, 20] ts la us q) :
    ∃ v, zzAction 6 us = .ok v ∧ ZM p 19 ts la v := by
  obtain ⟨v0, w0, t0, r0, q0, rfl, rfl, m0, e0, y0, v1, w1, t1, r1, q1, rfl, rfl, m1, e1, y1, v2, w2, t2, r2, q2, rfl, rfl, m2, e2, y2, rfl, rfl, rfl⟩ := hc
  obtain ⟨k0, rfl, z0, rfl⟩ : ∃ k, t0 = [k] ∧ ETok.num k = 15 ∧ v0 = k.val := m0
  obtain ⟨x0, rfl⟩ : ∃ x, k0 = .string x := by cases k0 <;> simp [ETok.num] at z0 ⊢
  obtain ⟨k1, rfl, z1, rfl⟩ : ∃ k, t1 = [k] ∧ ETok.num k = 8 ∧ v1 = k.val := m1
  obtain rfl : k1 = .colon := by cases k1 <;> simp [ETok.num] at z1 ⊢
  obtain ⟨n2, h2, rfl⟩ : ∃ x, EvValue t2 x ∧ v2 = EPVal.value x := m2
  exact ⟨_, rfl, _, by simpa using EvVar.value x0 h2, rfl⟩

theorem zz_rule7 {p q la : Nat} {ts : List ETok} {us : List EPVal} (hc : Chain ETok.num zzCert ZM p [15, 8, 10] ts la us q) :
    ∃ v, zzAction 7 us = .ok v ∧ ZM p 19 ts la v := by
  obtain ⟨v0, w0, t0, r0, q0, rfl, rfl, m0, e0, y0, v1, w1, t1, r1, q1, rfl, rfl, m1, e1, y1, v2, w2, t2, r2, q2, rfl, rfl, m2, e2, y2, rfl, rfl, rfl⟩ := hc
  obtain ⟨k0, rfl, z0, rfl⟩ : ∃ k, t0 = [k] ∧ ETok.num k = 15 ∧ v0 = k.val := m0
  obtain ⟨x0, rfl⟩ : ∃ x, k0 = .string x := by cases k0 <;> simp [ETok.num] at z0 ⊢
  obtain ⟨k1, rfl, z1, rfl⟩ : ∃ k, t1 = [k] ∧ ETok.num k = 8 ∧ v1 = k.val := m1
  obtain rfl : k1 = .colon := by cases k1 <;> simp [ETok.num] at z1 ⊢
  obtain ⟨k2, rfl, z2, rfl⟩ : ∃ k, t2 = [k] ∧ ETok.num k = 10 ∧ v2 = k.val := m2
  obtain rfl : k2 = .null := by cases k2 <;> simp [ETok.num] at z2 ⊢
  exact ⟨_, rfl, _, EvVar.null x0, rfl⟩

theorem zz_rule8 {p q la : Nat} {ts : List ETok} {us : List EPVal} (hc : Chain ETok.num zzCert ZM p [21] ts la us q) :
    ∃ v, zzAction 8 us = .ok v ∧ ZM p 20 ts la v := by
  obtain ⟨v0, w0, t0, r0, q0, rfl, rfl, m0, e0, y0, rfl, rfl, rfl⟩ := hc
  obtain ⟨n0, h0, rfl⟩ : ∃ b : Bool, EvValue t0 (.bool b) ∧ v0 = EPVal.bool b := m0
  exact ⟨_, rfl, _, by simpa using h0, rfl⟩

theorem zz_rule9 {p q la : Nat} {ts : List ETok} {us : List EPVal} (hc : Chain ETok.num zzCert ZM p [22] ts la us q) :
    ∃ v, zzAction 9 us = .ok v ∧ ZM p 20 ts la v := by
  obtain ⟨v0, w0, t0, r0, q0, rfl, rfl, m0, e0, y0, rfl, rfl, rfl⟩ := hc
  obtain ⟨n0, h0, rfl⟩ : ∃ n, EvInt t0 n ∧ v0 = EPVal.int n := m0
  exact ⟨_, rfl, _, by simpa using EvValue.int h0, rfl⟩

theorem zz_rule10 {p q la : Nat} {ts : List ETok} {us : List EPVal} (hc : Chain ETok.num zzCert ZM p [23] ts la us q) :
    ∃ v, zzAction 10 us = .ok v ∧ ZM p 20 ts la v := by
  obtain ⟨v0, w0, t0, r0, q0, rfl, rfl, m0, e0, y0, rfl, rfl, rfl⟩ := hc
  obtain ⟨n0, h0, rfl⟩ : ∃ n, EvFloat t0 n ∧ v0 = EPVal.float n := m0
  exact ⟨_, rfl, _, by simpa using EvValue.float h0, rfl⟩

theorem zz_rule11 {p q la : Nat} {ts : List ETok} {us : List EPVal} (hc : Chain ETok.num zzCert ZM p [24] ts la us q) :
    ∃ v, zzAction 11 us = .ok v ∧ ZM p 20 ts la v := by
  obtain ⟨v0, w0, t0, r0, q0, rfl, rfl, m0, e0, y0, rfl, rfl, rfl⟩ := hc
  obtain ⟨s0, rfl, rfl⟩ : ∃ s, t0 = [ETok.string s] ∧ v0 = EPVal.strVal (quoted s) := m0
  exact ⟨_, rfl, _, EvValue.string (.mk s0), rfl⟩

theorem zz_rule12 {p q la : Nat} {ts : List ETok} {us : List EPVal} (hc : Chain ETok.num zzCert ZM p [25] ts la us q) :
    ∃ v, zzAction 12 us = .ok v ∧ ZM p 20 ts la v := by
  obtain ⟨v0, w0, t0, r0, q0, rfl, rfl, m0, e0, y0, rfl, rfl, rfl⟩ := hc
  obtain ⟨rfl, rfl⟩ : t0 = [ETok.lsquare, ETok.rsquare] ∧ v0 = EPVal.ints [] := m0
  exact ⟨_, rfl, _, EvValue.empty, rfl⟩

theorem zz_rule13 {p q la : Nat} {ts : List ETok} {us : List EPVal} (hc : Chain ETok.num zzCert ZM p [26] ts la us q) :
    ∃ v, zzAction 13 us = .ok v ∧ ZM p 20 ts la v := by
  obtain ⟨v0, w0, t0, r0, q0, rfl, rfl, m0, e0, y0, rfl, rfl, rfl⟩ := hc
  obtain ⟨u0, n0, h0, rfl, rfl⟩ : ∃ u l, EvMany EvInt u l ∧ t0 = ETok.lsquare :: u ++ [ETok.rsquare] ∧ v0 = EPVal.ints l := m0
  exact ⟨_, rfl, _, by simpa using EvValue.ints h0, rfl⟩

theorem zz_rule14 {p q la : Nat} {ts : List ETok} {us : List EPVal} (hc : Chain ETok.num zzCert ZM p [28] ts la us q) :
    ∃ v, zzAction 14 us = .ok v ∧ ZM p 20 ts la v := by
  obtain ⟨v0, w0, t0, r0, q0, rfl, rfl, m0, e0, y0, rfl, rfl, rfl⟩ := hc
  obtain ⟨u0, n0, h0, rfl, rfl⟩ : ∃ u l, EvMany EvStr u l ∧ t0 = ETok.lsquare :: u ++ [ETok.rsquare] ∧ v0 = EPVal.strs l := m0
  exact ⟨_, rfl, _, by simpa using EvValue.strs h0, rfl⟩

theorem zz_rule15 {p q la : Nat} {ts : List ETok} {us : List EPVal} (hc : Chain ETok.num zzCert ZM p [30] ts la us q) :
    ∃ v, zzAction 15 us = .ok v ∧ ZM p 20 ts la v := by
  obtain ⟨v0, w0, t0, r0, q0, rfl, rfl, m0, e0, y0, rfl, rfl, rfl⟩ := hc
  obtain ⟨u0, n0, h0, rfl, rfl⟩ : ∃ u l, EvMany EvSeg u l ∧ t0 = ETok.lsquare :: u ++ [ETok.rsquare] ∧ v0 = EPVal.segs l := m0
  exact ⟨_, rfl, _, by simpa using EvValue.segs h0, rfl⟩

theorem zz_rule16 {p q la : Nat} {ts : List ETok} {us : List EPVal} (hc : Chain ETok.num zzCert ZM p [33] ts la us q) :
    ∃ v, zzAction 16 us = .ok v ∧ ZM p 20 ts la v := by
  obtain ⟨v0, w0, t0, r0, q0, rfl, rfl, m0, e0, y0, rfl, rfl, rfl⟩ := hc
  obtain ⟨u0, n0, h0, rfl, rfl⟩ : ∃ u l, EvMany EvCap u l ∧ t0 = ETok.lsquare :: u ++ [ETok.rsquare] ∧ v0 = EPVal.caps l := m0
  exact ⟨_, rfl, _, by simpa using EvValue.caps h0, rfl⟩

theorem zz_rule17 {p q la : Nat} {ts : List ETok} {us : List EPVal} (hc : Chain ETok.num zzCert ZM p [11] ts la us q) :
    ∃ v, zzAction 17 us = .ok v ∧ ZM p 21 ts la v := by
  obtain ⟨v0, w0, t0, r0, q0, rfl, rfl, m0, e0, y0, rfl, rfl, rfl⟩ := hc
  obtain ⟨k0, rfl, z0, rfl⟩ : ∃ k, t0 = [k] ∧ ETok.num k = 11 ∧ v0 = k.val := m0
  obtain rfl : k0 = .true := by cases k0 <;> simp [ETok.num] at z0 ⊢
  exact ⟨_, rfl, _, EvValue.true, rfl⟩

theorem zz_rule18 {p q la : Nat} {ts : List ETok} {us : List EPVal} (hc : Chain ETok.num zzCert ZM p [12] ts la us q) :
    ∃ v, zzAction 18 us = .ok v ∧ ZM p 21 ts la v := by
  obtain ⟨v0, w0, t0, r0, q0, rfl, rfl, m0, e0, y0, rfl, rfl, rfl⟩ := hc
  obtain ⟨k0, rfl, z0, rfl⟩ : ∃ k, t0 = [k] ∧ ETok.num k = 12 ∧ v0 = k.val := m0
  obtain rfl : k0 = .false := by cases k0 <;> simp [ETok.num] at z0 ⊢
  exact ⟨_, rfl, _, EvValue.false, rfl⟩

theorem zz_rule19 {p q la : Nat} {ts : List ETok} {us : List EPVal} (hc : Chain ETok.num zzCert ZM p [13] ts la us q) :
    ∃ v, zzAction 19 us = .ok v ∧ ZM p 22 ts la v := by
  obtain ⟨v0, w0, t0, r0, q0, rfl, rfl, m0, e0, y0, rfl, rfl, rfl⟩ := hc
  obtain ⟨k0, rfl, z0, rfl⟩ : ∃ k, t0 = [k] ∧ ETok.num k = 13 ∧ v0 = k.val := m0
  obtain ⟨x0, rfl⟩ : ∃ x, k0 = .int x := by cases k0 <;> simp [ETok.num] at z0 ⊢
  exact ⟨_, rfl, _, EvInt.pos _, rfl⟩

theorem zz_rule20 {p q la : Nat} {ts : List ETok} {us : List EPVal} (hc : Chain ETok.num zzCert ZM p [9, 13] ts la us q) :
    ∃ v, zzAction 20 us = .ok v ∧ ZM p 22 ts la v := by
  obtain ⟨v0, w0, t0, r0, q0, rfl, rfl, m0, e0, y0, v1, w1, t1, r1, q1, rfl, rfl, m1, e1, y1, rfl, rfl, rfl⟩ := hc
  obtain ⟨k0, rfl, z0, rfl⟩ : ∃ k, t0 = [k] ∧ ETok.num k = 9 ∧ v0 = k.val := m0
  obtain rfl : k0 = .minus := by cases k0 <;> simp [ETok.num] at z0 ⊢
  obtain ⟨k1, rfl, z1, rfl⟩ : ∃ k, t1 = [k] ∧ ETok.num k = 13 ∧ v1 = k.val := m1
  obtain ⟨x1, rfl⟩ : ∃ x, k1 = .int x := by cases k1 <;> simp [ETok.num] at z1 ⊢
  exact ⟨_, rfl, _, EvInt.neg _, rfl⟩

theorem zz_rule21 {p q la : Nat} {ts : List ETok} {us : List EPVal} (hc : Chain ETok.num zzCert ZM p [14] ts la us q) :
    ∃ v, zzAction 21 us = .ok v ∧ ZM p 23 ts la v := by
  obtain ⟨v0, w0, t0, r0, q0, rfl, rfl, m0, e0, y0, rfl, rfl, rfl⟩ := hc
  obtain ⟨k0, rfl, z0, rfl⟩ : ∃ k, t0 = [k] ∧ ETok.num k = 14 ∧ v0 = k.val := m0
  obtain ⟨x0, rfl⟩ : ∃ x, k0 = .float x := by cases k0 <;> simp [ETok.num] at z0 ⊢
  exact ⟨_, rfl, _, EvFloat.pos _, rfl⟩

theorem zz_rule22 {p q la : Nat} {ts : List ETok} {us : List EPVal} (hc : Chain ETok.num zzCert ZM p [9, 14] ts la us q) :
    ∃ v, zzAction 22 us = .ok v ∧ ZM p 23 ts la v := by
  obtain ⟨v0, w0, t0, r0, q0, rfl, rfl, m0, e0, y0, v1, w1, t1, r1, q1, rfl, rfl, m1, e1, y1, rfl, rfl, rfl⟩ := hc
  obtain ⟨k0, rfl, z0, rfl⟩ : ∃ k, t0 = [k] ∧ ETok.num k = 9 ∧ v0 = k.val := m0
  obtain rfl : k0 = .minus := by cases k0 <;> simp [ETok.num] at z0 ⊢
  obtain ⟨k1, rfl, z1, rfl⟩ : ∃ k, t1 = [k] ∧ ETok.num k = 14 ∧ v1 = k.val := m1
  obtain ⟨x1, rfl⟩ : ∃ x, k1 = .float x := by cases k1 <;> simp [ETok.num] at z1 ⊢
  exact ⟨_, rfl, _, EvFloat.neg _, rfl⟩

theorem zz_rule23 {p q la : Nat} {ts : List ETok} {us : List EPVal} (hc : Chain ETok.num zzCert ZM p [15] ts la us q) :
    ∃ v, zzAction 23 us = .ok v ∧ ZM p 24 ts la v := by
  obtain ⟨v0, w0, t0, r0, q0, rfl, rfl, m0, e0, y0, rfl, rfl, rfl⟩ := hc
  obtain ⟨k0, rfl, z0, rfl⟩ : ∃ k, t0 = [k] ∧ ETok.num k = 15 ∧ v0 = k.val := m0
  obtain ⟨x0, rfl⟩ : ∃ x, k0 = .string x := by cases k0 <;> simp [ETok.num] at z0 ⊢
  exact ⟨_, rfl, _, rfl, rfl⟩

theorem zz_rule24 {p q la : Nat} {ts : List ETok} {us : List EPVal} (hc : Chain ETok.num zzCert ZM p [5, 6] ts la us q) :
    ∃ v, zzAction 24 us = .ok v ∧ ZM p 25 ts la v := by
  obtain ⟨v0, w0, t0, r0, q0, rfl, rfl, m0, e0, y0, v1, w1, t1, r1, q1, rfl, rfl, m1, e1, y1, rfl, rfl, rfl⟩ := hc
  obtain ⟨k0, rfl, z0, rfl⟩ : ∃ k, t0 = [k] ∧ ETok.num k = 5 ∧ v0 = k.val := m0
  obtain rfl : k0 = .lsquare := by cases k0 <;> simp [ETok.num] at z0 ⊢
  obtain ⟨k1, rfl, z1, rfl⟩ : ∃ k, t1 = [k] ∧ ETok.num k = 6 ∧ v1 = k.val := m1
  obtain rfl : k1 = .rsquare := by cases k1 <;> simp [ETok.num] at z1 ⊢
  exact ⟨_, rfl, rfl, rfl⟩

theorem zz_rule25 {p q la : Nat} {ts : List ETok} {us : List EPVal} (hc : Chain ETok.num zzCert ZM p [5, 27, 6] ts la us q) :
    ∃ v, zzAction 25 us = .ok v ∧ ZM p 26 ts la v := by
  obtain ⟨v0, w0, t0, r0, q0, rfl, rfl, m0, e0, y0, v1, w1, t1, r1, q1, rfl, rfl, m1, e1, y1, v2, w2, t2, r2, q2, rfl, rfl, m2, e2, y2, rfl, rfl, rfl⟩ := hc
  obtain ⟨k0, rfl, z0, rfl⟩ : ∃ k, t0 = [k] ∧ ETok.num k = 5 ∧ v0 = k.val := m0
  obtain rfl : k0 = .lsquare := by cases k0 <;> simp [ETok.num] at z0 ⊢
  obtain ⟨n1, h1, rfl⟩ : ∃ l, EvMany EvInt t1 l ∧ v1 = EPVal.ints l := m1
  obtain ⟨k2, rfl, z2, rfl⟩ : ∃ k, t2 = [k] ∧ ETok.num k = 6 ∧ v2 = k.val := m2
  obtain rfl : k2 = .rsquare := by cases k2 <;> simp [ETok.num] at z2 ⊢
  exact ⟨_, rfl, _, _, h1, by simp, rfl⟩

theorem zz_rule26 {p q la : Nat} {ts : List ETok} {us : List EPVal} (hc : Chain ETok.num zzCert ZM p [22] ts la us q) :
    ∃ v, zzAction 26 us = .ok v ∧ ZM p 27 ts la v := by
  obtain ⟨v0, w0, t0, r0, q0, rfl, rfl, m0, e0, y0, rfl, rfl, rfl⟩ := hc
  obtain ⟨n0, h0, rfl⟩ : ∃ n, EvInt t0 n ∧ v0 = EPVal.int n := m0
  exact ⟨_, rfl, _, by simpa using EvMany.one h0, rfl⟩

theorem zz_rule27 {p q la : Nat} {ts : List ETok} {us : List EPVal} (hc : Chain ETok.num zzCert ZM p [27, 7, 22] ts la us q) :
    ∃ v, zzAction 27 us = .ok v ∧ ZM p 27 ts la v := by
  obtain ⟨v0, w0, t0, r0, q0, rfl, rfl, m0, e0, y0, v1, w1, t1, r1, q1, rfl, rfl, m1, e1, y1, v2, w2, t2, r2, q2, rfl, rfl, m2, e2, y2, rfl, rfl, rfl⟩ := hc
  obtain ⟨n0, h0, rfl⟩ : ∃ l, EvMany EvInt t0 l ∧ v0 = EPVal.ints l := m0
  obtain ⟨k1, rfl, z1, rfl⟩ : ∃ k, t1 = [k] ∧ ETok.num k = 7 ∧ v1 = k.val := m1
  obtain rfl : k1 = .comma := by cases k1 <;> simp [ETok.num] at z1 ⊢
  obtain ⟨n2, h2, rfl⟩ : ∃ n, EvInt t2 n ∧ v2 = EPVal.int n := m2
  exact ⟨_, rfl, _, by simpa using EvMany.more h0 h2, rfl⟩

theorem zz_rule28 {p q la : Nat} {ts : List ETok} {us : List EPVal} (hc : Chain ETok.num zzCert ZM p [5, 29, 6] ts la us q) :
    ∃ v, zzAction 28 us = .ok v ∧ ZM p 28 ts la v := by
  obtain ⟨v0, w0, t0, r0, q0, rfl, rfl, m0, e0, y0, v1, w1, t1, r1, q1, rfl, rfl, m1, e1, y1, v2, w2, t2, r2, q2, rfl, rfl, m2, e2, y2, rfl, rfl, rfl⟩ := hc
  obtain ⟨k0, rfl, z0, rfl⟩ : ∃ k, t0 = [k] ∧ ETok.num k = 5 ∧ v0 = k.val := m0
  obtain rfl : k0 = .lsquare := by cases k0 <;> simp [ETok.num] at z0 ⊢
  obtain ⟨n1, h1, rfl⟩ : ∃ l, EvMany EvStr t1 l ∧ v1 = EPVal.strs l := m1
  obtain ⟨k2, rfl, z2, rfl⟩ : ∃ k, t2 = [k] ∧ ETok.num k = 6 ∧ v2 = k.val := m2
  obtain rfl : k2 = .rsquare := by cases k2 <;> simp [ETok.num] at z2 ⊢
  exact ⟨_, rfl, _, _, h1, by simp, rfl⟩

theorem zz_rule29 {p q la : Nat} {ts : List ETok} {us : List EPVal} (hc : Chain ETok.num zzCert ZM p [24] ts la us q) :
    ∃ v, zzAction 29 us = .ok v ∧ ZM p 29 ts la v := by
  obtain ⟨v0, w0, t0, r0, q0, rfl, rfl, m0, e0, y0, rfl, rfl, rfl⟩ := hc
  obtain ⟨s0, rfl, rfl⟩ : ∃ s, t0 = [ETok.string s] ∧ v0 = EPVal.strVal (quoted s) := m0
  exact ⟨_, rfl, _, EvMany.one (.mk s0), rfl⟩

theorem zz_rule30 {p q la : Nat} {ts : List ETok} {us : List EPVal} (hc : Chain ETok.num zzCert ZM p [29, 7, 24] ts la us q) :
    ∃ v, zzAction 30 us = .ok v ∧ ZM p 29 ts la v := by
  obtain ⟨v0, w0, t0, r0, q0, rfl, rfl, m0, e0, y0, v1, w1, t1, r1, q1, rfl, rfl, m1, e1, y1, v2, w2, t2, r2, q2, rfl, rfl, m2, e2, y2, rfl, rfl, rfl⟩ := hc
  obtain ⟨n0, h0, rfl⟩ : ∃ l, EvMany EvStr t0 l ∧ v0 = EPVal.strs l := m0
  obtain ⟨k1, rfl, z1, rfl⟩ : ∃ k, t1 = [k] ∧ ETok.num k = 7 ∧ v1 = k.val := m1
  obtain rfl : k1 = .comma := by cases k1 <;> simp [ETok.num] at z1 ⊢
  obtain ⟨s2, rfl, rfl⟩ : ∃ s, t2 = [ETok.string s] ∧ v2 = EPVal.strVal (quoted s) := m2
  exact ⟨_, rfl, _, by simpa using EvMany.more h0 (EvStr.mk s2), rfl⟩

theorem zz_rule31 {p q la : Nat} {ts : List ETok} {us : List EPVal} (hc : Chain ETok.num zzCert ZM p [5, 31, 6] ts la us q) :
    ∃ v, zzAction 31 us = .ok v ∧ ZM p 30 ts la v := by
  obtain ⟨v0, w0, t0, r0, q0, rfl, rfl, m0, e0, y0, v1, w1, t1, r1, q1, rfl, rfl, m1, e1, y1, v2, w2, t2, r2, q2, rfl, rfl, m2, e2, y2, rfl, rfl, rfl⟩ := hc
  obtain ⟨k0, rfl, z0, rfl⟩ : ∃ k, t0 = [k] ∧ ETok.num k = 5 ∧ v0 = k.val := m0
  obtain rfl : k0 = .lsquare := by cases k0 <;> simp [ETok.num] at z0 ⊢
  obtain ⟨n1, h1, rfl⟩ : ∃ l, EvMany EvSeg t1 l ∧ v1 = EPVal.segs l := m1
  obtain ⟨k2, rfl, z2, rfl⟩ : ∃ k, t2 = [k] ∧ ETok.num k = 6 ∧ v2 = k.val := m2
  obtain rfl : k2 = .rsquare := by cases k2 <;> simp [ETok.num] at z2 ⊢
  exact ⟨_, rfl, _, _, h1, by simp, rfl⟩

theorem zz_rule32 {p q la : Nat} {ts : List ETok} {us : List EPVal} (hc : Chain ETok.num zzCert ZM p [32] ts la us q) :
    ∃ v, zzAction 32 us = .ok v ∧ ZM p 31 ts la v := by
  obtain ⟨v0, w0, t0, r0, q0, rfl, rfl, m0, e0, y0, rfl, rfl, rfl⟩ := hc
  obtain ⟨n0, h0, rfl⟩ : ∃ s, EvSeg t0 s ∧ v0 = EPVal.seg s := m0
  exact ⟨_, rfl, _, by simpa using EvMany.one h0, rfl⟩

theorem zz_rule33 {p q la : Nat} {ts : List ETok} {us : List EPVal} (hc : Chain ETok.num zzCert ZM p [31, 7, 32] ts la us q) :
    ∃ v, zzAction 33 us = .ok v ∧ ZM p 31 ts la v := by
  obtain ⟨v0, w0, t0, r0, q0, rfl, rfl, m0, e0, y0, v1, w1, t1, r1, q1, rfl, rfl, m1, e1, y1, v2, w2, t2, r2, q2, rfl, rfl, m2, e2, y2, rfl, rfl, rfl⟩ := hc
  obtain ⟨n0, h0, rfl⟩ : ∃ l, EvMany EvSeg t0 l ∧ v0 = EPVal.segs l := m0
  obtain ⟨k1, rfl, z1, rfl⟩ : ∃ k, t1 = [k] ∧ ETok.num k = 7 ∧ v1 = k.val := m1
  obtain rfl : k1 = .comma := by cases k1 <;> simp [ETok.num] at z1 ⊢
  obtain ⟨n2, h2, rfl⟩ : ∃ s, EvSeg t2 s ∧ v2 = EPVal.seg s := m2
  exact ⟨_, rfl, _, by simpa using EvMany.more h0 h2, rfl⟩

theorem zz_rule34 {p q la : Nat} {ts : List ETok} {us : List EPVal} (hc : Chain ETok.num zzCert ZM p [5, 22, 7, 22, 6] ts la us q) :
    ∃ v, zzAction 34 us = .ok v ∧ ZM p 32 ts la v := by
  obtain ⟨v0, w0, t0, r0, q0, rfl, rfl, m0, e0, y0, v1, w1, t1, r1, q1, rfl, rfl, m1, e1, y1, v2, w2, t2, r2, q2, rfl, rfl, m2, e2, y2, v3, w3, t3, r3, q3, rfl, rfl, m3, e3, y3, v4, w4, t4, r4, q4, rfl, rfl, m4, e4, y4, rfl, rfl, rfl⟩ := hc
  obtain ⟨k0, rfl, z0, rfl⟩ : ∃ k, t0 = [k] ∧ ETok.num k = 5 ∧ v0 = k.val := m0
  obtain rfl : k0 = .lsquare := by cases k0 <;> simp [ETok.num] at z0 ⊢
  obtain ⟨n1, h1, rfl⟩ : ∃ n, EvInt t1 n ∧ v1 = EPVal.int n := m1
  obtain ⟨k2, rfl, z2, rfl⟩ : ∃ k, t2 = [k] ∧ ETok.num k = 7 ∧ v2 = k.val := m2
  obtain rfl : k2 = .comma := by cases k2 <;> simp [ETok.num] at z2 ⊢
  obtain ⟨n3, h3, rfl⟩ : ∃ n, EvInt t3 n ∧ v3 = EPVal.int n := m3
  obtain ⟨k4, rfl, z4, rfl⟩ : ∃ k, t4 = [k] ∧ ETok.num k = 6 ∧ v4 = k.val := m4
  obtain rfl : k4 = .rsquare := by cases k4 <;> simp [ETok.num] at z4 ⊢
  exact ⟨_, rfl, _, by simpa using EvSeg.mk h1 h3, rfl⟩

theorem zz_rule35 {p q la : Nat} {ts : List ETok} {us : List EPVal} (hc : Chain ETok.num zzCert ZM p [5, 34, 6] ts la us q) :
    ∃ v, zzAction 35 us = .ok v ∧ ZM p 33 ts la v := by
  obtain ⟨v0, w0, t0, r0, q0, rfl, rfl, m0, e0, y0, v1, w1, t1, r1, q1, rfl, rfl, m1, e1, y1, v2, w2, t2, r2, q2, rfl, rfl, m2, e2, y2, rfl, rfl, rfl⟩ := hc
  obtain ⟨k0, rfl, z0, rfl⟩ : ∃ k, t0 = [k] ∧ ETok.num k = 5 ∧ v0 = k.val := m0
  obtain rfl : k0 = .lsquare := by cases k0 <;> simp [ETok.num] at z0 ⊢
  obtain ⟨n1, h1, rfl⟩ : ∃ l, EvMany EvCap t1 l ∧ v1 = EPVal.caps l := m1
  obtain ⟨k2, rfl, z2, rfl⟩ : ∃ k, t2 = [k] ∧ ETok.num k = 6 ∧ v2 = k.val := m2
  obtain rfl : k2 = .rsquare := by cases k2 <;> simp [ETok.num] at z2 ⊢
  exact ⟨_, rfl, _, _, h1, by simp, rfl⟩

theorem zz_rule36 {p q la : Nat} {ts : List ETok} {us : List EPVal} (hc : Chain ETok.num zzCert ZM p [35] ts la us q) :
    ∃ v, zzAction 36 us = .ok v ∧ ZM p 34 ts la v := by
  obtain ⟨v0, w0, t0, r0, q0, rfl, rfl, m0, e0, y0, rfl, rfl, rfl⟩ := hc
  obtain ⟨n0, h0, rfl⟩ : ∃ c, EvCap t0 c ∧ v0 = EPVal.cap c := m0
  exact ⟨_, rfl, _, by simpa using EvMany.one h0, rfl⟩

theorem zz_rule37 {p q la : Nat} {ts : List ETok} {us : List EPVal} (hc : Chain ETok.num zzCert ZM p [34, 7, 35] ts la us q) :
    ∃ v, zzAction 37 us = .ok v ∧ ZM p 34 ts la v := by
  obtain ⟨v0, w0, t0, r0, q0, rfl, rfl, m0, e0, y0, v1, w1, t1, r1, q1, rfl, rfl, m1, e1, y1, v2, w2, t2, r2, q2, rfl, rfl, m2, e2, y2, rfl, rfl, rfl⟩ := hc
  obtain ⟨n0, h0, rfl⟩ : ∃ l, EvMany EvCap t0 l ∧ v0 = EPVal.caps l := m0
  obtain ⟨k1, rfl, z1, rfl⟩ : ∃ k, t1 = [k] ∧ ETok.num k = 7 ∧ v1 = k.val := m1
  obtain rfl : k1 = .comma := by cases k1 <;> simp [ETok.num] at z1 ⊢
  obtain ⟨n2, h2, rfl⟩ : ∃ c, EvCap t2 c ∧ v2 = EPVal.cap c := m2
  exact ⟨_, rfl, _, by simpa using EvMany.more h0 h2, rfl⟩

theorem zz_rule38 {p q la : Nat} {ts : List ETok} {us : List EPVal} (hc : Chain ETok.num zzCert ZM p [5, 15, 7, 22, 7, 24, 7, 22, 7, 22, 6] ts la us q) :
    ∃ v, zzAction 38 us = .ok v ∧ ZM p 35 ts la v := by
  obtain ⟨v0, w0, t0, r0, q0, rfl, rfl, m0, e0, y0, v1, w1, t1, r1, q1, rfl, rfl, m1, e1, y1, v2, w2, t2, r2, q2, rfl, rfl, m2, e2, y2, v3, w3, t3, r3, q3, rfl, rfl, m3, e3, y3, v4, w4, t4, r4, q4, rfl, rfl, m4, e4, y4, v5, w5, t5, r5, q5, rfl, rfl, m5, e5, y5, v6, w6, t6, r6, q6, rfl, rfl, m6, e6, y6, v7, w7, t7, r7, q7, rfl, rfl, m7, e7, y7, v8, w8, t8, r8, q8, rfl, rfl, m8, e8, y8, v9, w9, t9, r9, q9, rfl, rfl, m9, e9, y9, v10, w10, t10, r10, q10, rfl, rfl, m10, e10, y10, rfl, rfl, rfl⟩ := hc
  obtain ⟨k0, rfl, z0, rfl⟩ : ∃ k, t0 = [k] ∧ ETok.num k = 5 ∧ v0 = k.val := m0
  obtain rfl : k0 = .lsquare := by cases k0 <;> simp [ETok.num] at z0 ⊢
  obtain ⟨k1, rfl, z1, rfl⟩ : ∃ k, t1 = [k] ∧ ETok.num k = 15 ∧ v1 = k.val := m1
  obtain ⟨x1, rfl⟩ : ∃ x, k1 = .string x := by cases k1 <;> simp [ETok.num] at z1 ⊢
  obtain ⟨k2, rfl, z2, rfl⟩ : ∃ k, t2 = [k] ∧ ETok.num k = 7 ∧ v2 = k.val := m2
  obtain rfl : k2 = .comma := by cases k2 <;> simp [ETok.num] at z2 ⊢
  obtain ⟨n3, h3, rfl⟩ : ∃ n, EvInt t3 n ∧ v3 = EPVal.int n := m3
  obtain ⟨k4, rfl, z4, rfl⟩ : ∃ k, t4 = [k] ∧ ETok.num k = 7 ∧ v4 = k.val := m4
  obtain rfl : k4 = .comma := by cases k4 <;> simp [ETok.num] at z4 ⊢
  obtain ⟨s5, rfl, rfl⟩ : ∃ s, t5 = [ETok.string s] ∧ v5 = EPVal.strVal (quoted s) := m5
  obtain ⟨k6, rfl, z6, rfl⟩ : ∃ k, t6 = [k] ∧ ETok.num k = 7 ∧ v6 = k.val := m6
  obtain rfl : k6 = .comma := by cases k6 <;> simp [ETok.num] at z6 ⊢
  obtain ⟨n7, h7, rfl⟩ : ∃ n, EvInt t7 n ∧ v7 = EPVal.int n := m7
  obtain ⟨k8, rfl, z8, rfl⟩ : ∃ k, t8 = [k] ∧ ETok.num k = 7 ∧ v8 = k.val := m8
  obtain rfl : k8 = .comma := by cases k8 <;> simp [ETok.num] at z8 ⊢
  obtain ⟨n9, h9, rfl⟩ : ∃ n, EvInt t9 n ∧ v9 = EPVal.int n := m9
  obtain ⟨k10, rfl, z10, rfl⟩ : ∃ k, t10 = [k] ∧ ETok.num k = 6 ∧ v10 = k.val := m10
  obtain rfl : k10 = .rsquare := by cases k10 <;> simp [ETok.num] at z10 ⊢
  exact ⟨_, rfl, _, capOf (EvCap.flat x1 s5 (capType_of x1) h3 h7 h9) (by simp), rfl⟩

theorem zz_rule39 {p q la : Nat} {ts : List ETok} {us : List EPVal} (hc : Chain ETok.num zzCert ZM p [5, 5, 15, 7, 22, 7, 24, 6, 7, 22, 7, 22, 6] ts la us q) :
    ∃ v, zzAction 39 us = .ok v ∧ ZM p 35 ts la v := by
  obtain ⟨v0, w0, t0, r0, q0, rfl, rfl, m0, e0, y0, v1, w1, t1, r1, q1, rfl, rfl, m1, e1, y1, v2, w2, t2, r2, q2, rfl, rfl, m2, e2, y2, v3, w3, t3, r3, q3, rfl, rfl, m3, e3, y3, v4, w4, t4, r4, q4, rfl, rfl, m4, e4, y4, v5, w5, t5, r5, q5, rfl, rfl, m5, e5, y5, v6, w6, t6, r6, q6, rfl, rfl, m6, e6, y6, v7, w7, t7, r7, q7, rfl, rfl, m7, e7, y7, v8, w8, t8, r8, q8, rfl, rfl, m8, e8, y8, v9, w9, t9, r9, q9, rfl, rfl, m9, e9, y9, v10, w10, t10, r10, q10, rfl, rfl, m10, e10, y10, v11, w11, t11, r11, q11, rfl, rfl, m11, e11, y11, v12, w12, t12, r12, q12, rfl, rfl, m12, e12, y12, rfl, rfl, rfl⟩ := hc
  obtain ⟨k0, rfl, z0, rfl⟩ : ∃ k, t0 = [k] ∧ ETok.num k = 5 ∧ v0 = k.val := m0
  obtain rfl : k0 = .lsquare := by cases k0 <;> simp [ETok.num] at z0 ⊢
  obtain ⟨k1, rfl, z1, rfl⟩ : ∃ k, t1 = [k] ∧ ETok.num k = 5 ∧ v1 = k.val := m1
  obtain rfl : k1 = .lsquare := by cases k1 <;> simp [ETok.num] at z1 ⊢
  obtain ⟨k2, rfl, z2, rfl⟩ : ∃ k, t2 = [k] ∧ ETok.num k = 15 ∧ v2 = k.val := m2
  obtain ⟨x2, rfl⟩ : ∃ x, k2 = .string x := by cases k2 <;> simp [ETok.num] at z2 ⊢
  obtain ⟨k3, rfl, z3, rfl⟩ : ∃ k, t3 = [k] ∧ ETok.num k = 7 ∧ v3 = k.val := m3
  obtain rfl : k3 = .comma := by cases k3 <;> simp [ETok.num] at z3 ⊢
  obtain ⟨n4, h4, rfl⟩ : ∃ n, EvInt t4 n ∧ v4 = EPVal.int n := m4
  obtain ⟨k5, rfl, z5, rfl⟩ : ∃ k, t5 = [k] ∧ ETok.num k = 7 ∧ v5 = k.val := m5
  obtain rfl : k5 = .comma := by cases k5 <;> simp [ETok.num] at z5 ⊢
  obtain ⟨s6, rfl, rfl⟩ : ∃ s, t6 = [ETok.string s] ∧ v6 = EPVal.strVal (quoted s) := m6
  obtain ⟨k7, rfl, z7, rfl⟩ : ∃ k, t7 = [k] ∧ ETok.num k = 6 ∧ v7 = k.val := m7
  obtain rfl : k7 = .rsquare := by cases k7 <;> simp [ETok.num] at z7 ⊢
  obtain ⟨k8, rfl, z8, rfl⟩ : ∃ k, t8 = [k] ∧ ETok.num k = 7 ∧ v8 = k.val := m8
  obtain rfl : k8 = .comma := by cases k8 <;> simp [ETok.num] at z8 ⊢
  obtain ⟨n9, h9, rfl⟩ : ∃ n, EvInt t9 n ∧ v9 = EPVal.int n := m9
  obtain ⟨k10, rfl, z10, rfl⟩ : ∃ k, t10 = [k] ∧ ETok.num k = 7 ∧ v10 = k.val := m10
  obtain rfl : k10 = .comma := by cases k10 <;> simp [ETok.num] at z10 ⊢
  obtain ⟨n11, h11, rfl⟩ : ∃ n, EvInt t11 n ∧ v11 = EPVal.int n := m11
  obtain ⟨k12, rfl, z12, rfl⟩ : ∃ k, t12 = [k] ∧ ETok.num k = 6 ∧ v12 = k.val := m12
  obtain rfl : k12 = .rsquare := by cases k12 <;> simp [ETok.num] at z12 ⊢
  exact ⟨_, rfl, _, capOf (EvCap.nested x2 s6 (capType_of x2) h4 h9 h11) (by simp), rfl⟩

theorem zz_rules (nt p q la : Nat) (ts : List ETok) (us : List EPVal) : ∀ r : Nat, r ≠ 0 → r ≠ 1 →
    Chain ETok.num zzCert ZM p (zzCert.rule r) ts la us q → zzTables.r1[r]? = some nt →
    ∃ v, zzAction r us = .ok v ∧ ZM p nt ts la v
  | 0, h, _, _, _ => absurd rfl h
  | 1, _, h, _, _ => absurd rfl h
  | 2, _, _, hc, hr => by
    obtain rfl : 17 = nt := Option.some.inj hr
    exact zz_rule2 hc
  | 3, _, _, hc, hr => by
    obtain rfl : 17 = nt := Option.some.inj hr
    exact zz_rule3 hc
  | 4, _, _, hc, hr => by
    obtain rfl : 18 = nt := Option.some.inj hr
    exact zz_rule4 hc
  | 5, _, _, hc, hr => by
    obtain rfl : 18 = nt := Option.some.inj hr
    exact zz_rule5 hc
  | 6, _, _, hc, hr => by
    obtain rfl : 19 = nt := Option.some.inj hr
    exact zz_rule6 hc
  | 7, _, _, hc, hr => by
    obtain rfl : 19 = nt := Option.some.inj hr
    exact zz_rule7 hc
  | 8, _, _, hc, hr => by
    obtain rfl : 20 = nt := Option.some.inj hr
    exact zz_rule8 hc
  | 9, _, _, hc, hr => by
    obtain rfl : 20 = nt := Option.some.inj hr
    exact zz_rule9 hc
  | 10, _, _, hc, hr => by
    obtain rfl : 20 = nt := Option.some.inj hr
    exact zz_rule10 hc
  | 11, _, _, hc, hr => by
    obtain rfl : 20 = nt := Option.some.inj hr
    exact zz_rule11 hc
  | 12, _, _, hc, hr => by
    obtain rfl : 20 = nt := Option.some.inj hr
    exact zz_rule12 hc
  | 13, _, _, hc, hr => by
    obtain rfl : 20 = nt := Option.some.inj hr
    exact zz_rule13 hc
  | 14, _, _, hc, hr => by
    obtain rfl : 20 = nt := Option.some.inj hr
    exact zz_rule14 hc
  | 15, _, _, hc, hr => by
    obtain rfl : 20 = nt := Option.some.inj hr
    exact zz_rule15 hc
  | 16, _, _, hc, hr => by
    obtain rfl : 20 = nt := Option.some.inj hr
    exact zz_rule16 hc
  | 17, _, _, hc, hr => by
    obtain rfl : 21 = nt := Option.some.inj hr
    exact zz_rule17 hc
  | 18, _, _, hc, hr => by
    obtain rfl : 21 = nt := Option.some.inj hr
    exact zz_rule18 hc
  | 19, _, _, hc, hr => by
    obtain rfl : 22 = nt := Option.some.inj hr
    exact zz_rule19 hc
  | 20, _, _, hc, hr => by
    obtain rfl : 22 = nt := Option.some.inj hr
    exact zz_rule20 hc
  | 21, _, _, hc, hr => by
    obtain rfl : 23 = nt := Option.some.inj hr
    exact zz_rule21 hc
  | 22, _, _, hc, hr => by
    obtain rfl : 23 = nt := Option.some.inj hr
    exact zz_rule22 hc
  | 23, _, _, hc, hr => by
    obtain rfl : 24 = nt := Option.some.inj hr
    exact zz_rule23 hc
  | 24, _, _, hc, hr => by
    obtain rfl : 25 = nt := Option.some.inj hr
    exact zz_rule24 hc
  | 25, _, _, hc, hr => by
    obtain rfl : 26 = nt := Option.some.inj hr
    exact zz_rule25 hc
  | 26, _, _, hc, hr => by
    obtain rfl : 27 = nt := Option.some.inj hr
    exact zz_rule26 hc
  | 27, _, _, hc, hr => by
    obtain rfl : 27 = nt := Option.some.inj hr
    exact zz_rule27 hc
  | 28, _, _, hc, hr => by
    obtain rfl : 28 = nt := Option.some.inj hr
    exact zz_rule28 hc
  | 29, _, _, hc, hr => by
    obtain rfl : 29 = nt := Option.some.inj hr
    exact zz_rule29 hc
  | 30, _, _, hc, hr => by
    obtain rfl : 29 = nt := Option.some.inj hr
    exact zz_rule30 hc
  | 31, _, _, hc, hr => by
    obtain rfl : 30 = nt := Option.some.inj hr
    exact zz_rule31 hc
  | 32, _, _, hc, hr => by
    obtain rfl : 31 = nt := Option.some.inj hr
    exact zz_rule32 hc
  | 33, _, _, hc, hr => by
    obtain rfl : 31 = nt := Option.some.inj hr
    exact zz_rule33 hc
  | 34, _, _, hc, hr => by
    obtain rfl : 32 = nt := Option.some.inj hr
    exact zz_rule34 hc
  | 35, _, _, hc, hr => by
    obtain rfl : 33 = nt := Option.some.inj hr
    exact zz_rule35 hc
  | 36, _, _, hc, hr => by
    obtain rfl : 34 = nt := Option.some.inj hr
    exact zz_rule36 hc
  | 37, _, _, hc, hr => by
    obtain rfl : 34 = nt := Option.some.inj hr
    exact zz_rule37 hc
  | 38, _, _, hc, hr => by
    obtain rfl : 35 = nt := Option.some.inj hr
    exact zz_rule38 hc
  | 39, _, _, hc, hr => by
    obtain rfl : 35 = nt := Option.some.inj hr
    exact zz_rule39 hc
  | r + 40, _, _, _, hr => by
    have h : zzTables.r1.length = 40 := rfl
    rw [List.getElem?_eq_none (by omega)] at hr
    cases hr

theorem zz_closed : Closed zzTables zzCert ETok.num ETok.val .token zzAction ZM where
  tok p t la := by cases t <;> exact ⟨_, rfl, rfl, rfl⟩
  eof p la := ⟨rfl, rfl⟩
  eof_inv p ts la v h := h.1
  num_pos t := by cases t <;> simp [ETok.num]
  num_lt t := by
    have : zzTables.ntokens = 16 := rfl
    cases t <;> simp [ETok.num, this]
  pos := by decide
  rule r p ts la us q nt h0 hq hc ha hr := by
    by_cases h1 : r = 1
    · subst h1
      obtain ⟨v0, w0, t0, r0, q0, rfl, rfl, m0, e0, y0, v1, w1, t1, r1, q1, rfl, rfl, m1, e1, y1, rfl, rfl, rfl⟩ := hc
      exact absurd (zz_after_eof y1) hq
    · exact zz_rules nt p q la ts us r h0 h1 hc hr

end BeTree
