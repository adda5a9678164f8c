import Verif.Model.LR
/-
The table-driven parser: checks on the tables (evaluated by the kernel) under which it never fails on its own, its result is described
by any predicate closed under the rules, and every derivation is followed.
-/
namespace BeTree

/-- data about an automaton that the checks below validate: for each state its accessing symbol, its possible predecessors and a weight;
the right-hand sides of the rules; the weight of an unread token -/
structure LRCert where
  stos : List Nat
  pre : List (List Nat)
  wt : List Nat
  rhs : List (List Nat)
  start : Nat

def LRCert.sym (C : LRCert) (s : Nat) : Nat := C.stos.getD s 1000
def LRCert.edge (C : LRCert) (p s : Nat) : Prop := p ∈ C.pre.getD s []
instance (C : LRCert) (p s : Nat) : Decidable (C.edge p s) := inferInstanceAs (Decidable (_ ∈ _))
def LRCert.weight (C : LRCert) (s : Nat) : Nat := C.wt.getD s 0
def LRCert.rule (C : LRCert) (r : Nat) : List Nat := C.rhs.getD r []

/-- going back from `s` along the reversed right-hand side one meets its symbols, and ends where `k` holds -/
def LRCert.back (C : LRCert) (k : Nat → Bool) : List Nat → Nat → Bool
  | [], s => k s
  | X :: Xs, s => C.sym s == X && (C.pre.getD s []).all (fun p => C.back k Xs p)

/-- a reduction in a state -/
def LRCert.reduceOK (C : LRCert) (T : LRTables) (s r : Nat) : Bool :=
  match T.r1[r]?, T.r2[r]? with
  | some nt, some len =>
    (C.rule r).length == len && len != 0 &&
      C.back (fun p =>
        match T.goto p nt with
        | none => false
        | some g => decide (C.edge p g) && C.sym g == nt && g != T.final && decide (g < C.stos.length)
            && decide (C.weight g < C.weight s + 2 * (len - 1)))
        (C.rule r).reverse s
  | _, _ => false

/-- an action in a state -/
def LRCert.actOK (C : LRCert) (T : LRTables) (s t : Nat) : Bool :=
  match T.act s t with
  | .bad => false
  | .error => true
  | .shift s' => decide (C.edge s s') && C.sym s' == t && decide (C.weight s' < 11) && (t == 0) == (s' == T.final)
      && decide (s' < C.stos.length)
  | .reduce r => r != 0 && ((T.defact.getD s 0 == r) || C.reduceOK T s r)

/-- all checks about a state -/
def LRCert.stateOK (C : LRCert) (T : LRTables) (s : Nat) : Bool :=
  s == T.final ||
    ((T.defact.getD s 0 == 0 || C.reduceOK T s (T.defact.getD s 0)) && (List.range T.ntokens).all (C.actOK T s))

/-- all checks -/
structure LRCert.OK (C : LRCert) (T : LRTables) : Prop where
  states : ∀ s < C.stos.length, C.stateOK T s = true
  weights : ∀ s < C.stos.length, 2 ≤ C.weight s
  bottom : ∀ X ∈ C.rhs.flatten, C.sym 0 ≠ X
  zero : 0 < C.stos.length ∧ C.sym 0 ≠ 0 ∧ C.sym 0 ≠ C.start ∧ T.final ≠ 0
  bottomPre : ∀ s < C.stos.length, ¬ C.edge s 0
  final : C.back (fun p => p == 0) [0, C.start] T.final = true

section
variable {τ V : Type} (num : τ → Nat)

/-- the number of the token after `ts`, when `la` follows -/
def nextOr (ts : List τ) (la : Nat) : Nat :=
  match ts with
  | [] => la
  | t :: _ => num t

theorem nextOr_append (a b : List τ) (la : Nat) : nextOr num (a ++ b) la = nextOr num a (nextOr num b la) := by
  cases a <;> rfl

theorem nextOr_nextNum (a b : List τ) : nextOr num a (nextNum num b) = nextNum num (a ++ b) := by
  cases a <;> rfl

variable (C : LRCert) (M : Nat → Nat → List τ → Nat → V → Prop)

/-- `M` along a right-hand side, through the states from `p` to `q` -/
def Chain : Nat → List Nat → List τ → Nat → List V → Nat → Prop
  | p, [], ts, _, vs, q => ts = [] ∧ vs = [] ∧ q = p
  | p, X :: Xs, ts, la, vs, q =>
    ∃ v vs' t1 t2 s, vs = v :: vs' ∧ ts = t1 ++ t2 ∧ M p X t1 (nextOr num t2 la) v ∧ C.edge p s ∧ C.sym s = X ∧
      Chain s Xs t2 la vs' q

/-- `M` for everything on the stack; `ws` are the tokens read, `la` is the next -/
def Path : List (Nat × V) → List τ → Nat → Prop
  | [], ws, _ => ws = []
  | (s, v) :: stk, ws, la =>
    ∃ ws' ts, ws = ws' ++ ts ∧ M (topState stk) (C.sym s) ts la v ∧ C.edge (topState stk) s ∧ s < C.stos.length ∧
      Path stk ws' (nextOr num ts la)

variable {num C M}

theorem chain_snoc {p q s X : Nat} {Xs : List Nat} {ts t2 : List τ} {la : Nat} {vs : List V} {v : V}
    (h : Chain num C M p Xs ts (nextOr num t2 la) vs q) (hm : M q X t2 la v) (he : C.edge q s) (hs : C.sym s = X) :
    Chain num C M p (Xs ++ [X]) (ts ++ t2) la (vs ++ [v]) s := by
  induction Xs generalizing p ts vs with
  | nil =>
    obtain ⟨rfl, rfl, rfl⟩ := h
    exact ⟨v, [], t2, [], s, rfl, by simp, hm, he, hs, rfl, rfl, rfl⟩
  | cons Y Ys ih =>
    obtain ⟨u, us, t1, t3, s1, rfl, rfl, hu, he1, hs1, hc⟩ := h
    refine ⟨u, us ++ [v], t1, t3 ++ t2, s1, rfl, by simp, ?_, he1, hs1, ih hc⟩
    rw [nextOr_append]; exact hu

theorem path_top_lt {stk : List (Nat × V)} {ws : List τ} {la : Nat} (h : Path num C M stk ws la) (h0 : 0 < C.stos.length) :
    topState stk < C.stos.length := by
  cases stk with
  | nil => exact h0
  | cons a stk => obtain ⟨s, v⟩ := a; obtain ⟨_, _, _, _, _, h, _⟩ := h; exact h

theorem path_pop {k : Nat → Bool} {Xs : List Nat} {stk : List (Nat × V)} {ws : List τ} {la : Nat}
    (h : Path num C M stk ws la) (hb : C.back k Xs (topState stk) = true) (h0 : ∀ X ∈ Xs, C.sym 0 ≠ X) :
    ∃ ws' ts, ws = ws' ++ ts ∧ Xs.length ≤ stk.length ∧ Path num C M (stk.drop Xs.length) ws' (nextOr num ts la) ∧
      Chain num C M (topState (stk.drop Xs.length)) Xs.reverse ts la ((stk.take Xs.length).reverse.map Prod.snd) (topState stk) ∧
      k (topState (stk.drop Xs.length)) = true := by
  induction Xs generalizing stk ws la with
  | nil => exact ⟨ws, [], by simp, Nat.zero_le _, h, ⟨rfl, rfl, rfl⟩, hb⟩
  | cons X Xs ih =>
    cases stk with
    | nil =>
      simp only [LRCert.back, topState, Bool.and_eq_true, beq_iff_eq] at hb
      exact absurd hb.1 (h0 X (by simp))
    | cons a stk =>
      obtain ⟨s, v⟩ := a
      obtain ⟨ws', ts, rfl, hm, he, hl, hp⟩ := h
      simp only [LRCert.back, topState, Bool.and_eq_true, beq_iff_eq, List.all_eq_true] at hb
      obtain ⟨w1, t1, rfl, hlen, hp1, hc, hk⟩ := ih hp (hb.2 _ he) (fun Y hY => h0 Y (by simp [hY]))
      refine ⟨w1, t1 ++ ts, by simp, by simpa using hlen, ?_, ?_, hk⟩
      · rw [nextOr_append]; exact hp1
      · have := chain_snoc (s := s) (X := X) hc (by rw [← hb.1]; exact hm) he hb.1
        simpa [topState] using this

end

section
variable {τ V : Type} {T : LRTables} {C : LRCert} {num : τ → Nat} {val : τ → V} {eofVal : V}
  {action : Nat → List V → Except Fault V} {M : Nat → Nat → List τ → Nat → V → Prop}

/-- what a predicate on (state below, symbol, tokens, next token, value) has to satisfy to describe the result -/
structure Closed (T : LRTables) (C : LRCert) (num : τ → Nat) (val : τ → V) (eofVal : V)
    (action : Nat → List V → Except Fault V) (M : Nat → Nat → List τ → Nat → V → Prop) : Prop where
  tok : ∀ p t la, M p (num t) [t] la (val t)
  eof : ∀ p la, M p 0 [] la eofVal
  eof_inv : ∀ p ts la v, M p 0 ts la v → ts = []
  num_pos : ∀ t, num t ≠ 0
  num_lt : ∀ t, num t < T.ntokens
  pos : 0 < T.ntokens
  rule : ∀ r p ts la us q nt, r ≠ 0 → q ≠ T.final → Chain num C M p (C.rule r) ts la us q → T.act q la = .reduce r → T.r1[r]? = some nt →
    ∃ v, action r us = .ok v ∧ M p nt ts la v

/-- how many more steps are possible -/
def stackWeight (C : LRCert) (stk : List (Nat × V)) : Nat := (stk.map fun p => C.weight p.1).sum

theorem stackWeight_split {stk : List (Nat × V)} {n : Nat} (hn : 0 < n) (hlen : n ≤ stk.length)
    (hw : ∀ p ∈ stk, 2 ≤ C.weight p.1) :
    C.weight (topState stk) + 2 * (n - 1) + stackWeight C (stk.drop n) ≤ stackWeight C stk := by
  cases stk with
  | nil => simp at hlen; omega
  | cons a stk =>
    obtain ⟨n, rfl⟩ : ∃ m, n = m + 1 := ⟨n - 1, by omega⟩
    simp only [List.length_cons, Nat.add_le_add_iff_right] at hlen
    have key : ∀ (m : Nat) (l : List (Nat × V)), m ≤ l.length → (∀ p ∈ l, 2 ≤ C.weight p.1) →
        2 * m + stackWeight C (l.drop m) ≤ stackWeight C l := by
      intro m
      induction m with
      | zero => intro l _ _; simp
      | succ m ih =>
        intro l hl hw
        cases l with
        | nil => simp at hl
        | cons b l =>
          have := ih l (by simpa using hl) (fun p hp => hw p (by simp [hp]))
          have h2 := hw b (by simp)
          simp only [stackWeight, List.map_cons, List.sum_cons, List.drop_succ_cons] at this ⊢
          omega
    have := key n stk hlen (fun p hp => hw p (by simp [hp]))
    simp only [stackWeight, List.map_cons, List.sum_cons, List.drop_succ_cons, topState, Nat.add_sub_cancel] at this ⊢
    omega

theorem path_lt {stk : List (Nat × V)} {ws : List τ} {la : Nat} (h : Path num C M stk ws la) :
    ∀ p ∈ stk, p.1 < C.stos.length := by
  induction stk generalizing ws la with
  | nil => simp
  | cons a stk ih =>
    obtain ⟨s, v⟩ := a
    obtain ⟨_, _, _, _, _, hl, hp⟩ := h
    intro p hp'
    rcases List.mem_cons.mp hp' with rfl | h
    · exact hl
    · exact ih hp p h

theorem lrRun_succ (fuel : Nat) (stack : List (Nat × V)) (input : List τ) :
    lrRun T num val eofVal action (fuel + 1) stack input =
      if T.depth ≤ stack.length + 1 then .ok none
      else if topState stack = T.final then
        match stack with
        | [_, (_, v)] => .ok (some v)
        | _ => .error .ub
      else
        match T.act (topState stack) (nextNum num input) with
        | .bad => .error .ub
        | .error => .ok none
        | .shift s =>
          match input with
          | [] => lrRun T num val eofVal action fuel ((s, eofVal) :: stack) []
          | t :: rest => lrRun T num val eofVal action fuel ((s, val t) :: stack) rest
        | .reduce r =>
          match T.r1[r]?, T.r2[r]? with
          | some nt, some len =>
            if stack.length < len then .error .ub
            else
              match action r ((stack.take len).reverse.map Prod.snd) with
              | .error e => .error e
              | .ok v =>
                match T.goto (topState (stack.drop len)) nt with
                | none => .error .ub
                | some s => lrRun T num val eofVal action fuel ((s, v) :: stack.drop len) input
          | _, _ => .error .ub := rfl

/-- The parser returns, and what it returns is described by the predicate. -/
theorem lrRun_sound (hC : C.OK T) (hM : Closed T C num val eofVal action M) (fuel : Nat) :
    ∀ (stk : List (Nat × V)) (input ws : List τ), Path num C M stk ws (nextNum num input) →
      (topState stk = T.final → input = []) →
      stackWeight C stk + 11 * input.length + (if topState stk = T.final then 0 else 11) < fuel →
      lrRun T num val eofVal action fuel stk input = .ok none ∨
        ∃ v, lrRun T num val eofVal action fuel stk input = .ok (some v) ∧ M 0 C.start (ws ++ input) 0 v := by
  induction fuel with
  | zero => intro stk input ws _ _ h; omega
  | succ fuel ih =>
    intro stk input ws hp hfin hfuel
    have htop := path_top_lt hp hC.zero.1
    have hst := hC.states _ htop
    rw [lrRun_succ]
    by_cases hd : T.depth ≤ stk.length + 1
    · rw [if_pos hd]; exact Or.inl rfl
    · rw [if_neg hd]
      by_cases hf : topState stk = T.final
      · rw [if_pos hf]
        have hin := hfin hf
        subst hin
        have hb := hC.final
        rw [← hf] at hb
        obtain ⟨ws', ts, rfl, hlen, hp1, hc, hk⟩ := path_pop hp hb (by
          intro X hX; simp only [List.mem_cons, List.not_mem_nil, or_false] at hX
          rcases hX with rfl | rfl
          · exact hC.zero.2.1
          · exact hC.zero.2.2.1)
        simp only [List.length_cons, List.length_nil, Nat.zero_add, Nat.reduceAdd] at *
        have key : ∃ s1 v1 s2 v2, stk = [(s1, v1), (s2, v2)] ∧ M 0 C.start (ws' ++ ts) 0 v2 := by
          match stk, hlen, hp1, hc, hk with
          | (s1, v1) :: (s2, v2) :: rest, _, hp1, hc, hk =>
            simp only [List.drop_succ_cons, List.drop_zero, beq_iff_eq] at hp1 hk hc
            cases rest with
            | cons a rest =>
              obtain ⟨s3, v3⟩ := a
              simp only [topState] at hk
              subst hk
              obtain ⟨_, _, _, _, he, _, hp2⟩ := hp1
              exact absurd he (hC.bottomPre _ (path_top_lt hp2 hC.zero.1))
            | nil =>
              refine ⟨s1, v1, s2, v2, rfl, ?_⟩
              obtain rfl : ws' = [] := hp1
              simp only [List.take_succ_cons, List.take_zero, List.reverse_cons, List.reverse_nil, List.nil_append, List.cons_append,
                List.map_cons, List.map_nil, Chain, topState] at hc
              obtain ⟨u, us, t1, t2, s, he, rfl, hm, _, _, u2, us2, t3, t4, s', he2, rfl, hm2, _, _, rfl, _, _⟩ := hc
              cases he
              cases he2
              have h3 := hM.eof_inv _ _ _ _ hm2
              subst h3
              simpa [nextOr, nextNum] using hm
        obtain ⟨s1, v1, s2, v2, rfl, hm⟩ := key
        exact Or.inr ⟨v2, rfl, by simpa using hm⟩
      · rw [if_neg hf] at hfuel ⊢
        simp only [LRCert.stateOK, Bool.or_eq_true, beq_iff_eq, hf, false_or, Bool.and_eq_true, List.all_eq_true, List.mem_range] at hst
        have hla : nextNum num input < T.ntokens := by
          cases input with
          | nil => exact hM.pos
          | cons t _ => exact hM.num_lt t
        have hact := hst.2 _ hla
        simp only [LRCert.actOK] at hact
        have hw : ∀ p ∈ stk, 2 ≤ C.weight p.1 := fun p hp' => hC.weights _ (path_lt hp p hp')
        split <;> rename_i ha <;> rw [ha] at hact
        · simp at hact
        · exact Or.inl rfl
        · rename_i s
          simp only [Bool.and_eq_true, decide_eq_true_eq, beq_iff_eq] at hact
          obtain ⟨⟨⟨⟨he, hsym⟩, hwt⟩, hz⟩, hlt⟩ := hact
          cases input with
          | nil =>
            have hs : s = T.final := by simpa [nextNum] using hz
            have hp' : Path num C M ((s, eofVal) :: stk) ws (nextNum num ([] : List τ)) := by
              refine ⟨ws, [], by simp, ?_, he, hlt, hp⟩
              rw [hsym]; exact hM.eof _ _
            have := ih _ _ _ hp' (fun _ => rfl) (by
              simp only [stackWeight, List.map_cons, List.sum_cons, topState, hs, if_true, List.length_nil] at hfuel hwt ⊢; omega)
            exact this
          | cons t rest =>
            have hp' : Path num C M ((s, val t) :: stk) (ws ++ [t]) (nextNum num rest) := by
              refine ⟨ws, [t], rfl, ?_, he, hlt, hp⟩
              rw [hsym]; exact hM.tok _ _ _
            have hs : s ≠ T.final := by
              intro h
              simp only [h, beq_self_eq_true, beq_iff_eq, nextNum] at hz
              exact hM.num_pos t hz
            have := ih _ _ _ hp' (fun h => absurd h hs) (by
              simp only [stackWeight, List.map_cons, List.sum_cons, topState, hs, if_false, List.length_cons] at hfuel hwt ⊢; omega)
            simpa using this
        · rename_i r
          rw [Bool.and_eq_true] at hact
          have hred : C.reduceOK T (topState stk) r = true := by
            have h2 := hact.2
            rw [Bool.or_eq_true, beq_iff_eq] at h2
            rcases h2 with h | h
            · rcases hst.1 with h' | h'
              · rw [h'] at h
                rw [← h] at hact
                simp at hact
              · rw [h] at h'; exact h'
            · exact h
          simp only [LRCert.reduceOK] at hred
          split at hred
          · rename_i nt len h1 h2
            simp only [Bool.and_eq_true, beq_iff_eq, bne_iff_ne, ne_eq] at hred
            obtain ⟨⟨hlen, hne⟩, hb⟩ := hred
            obtain ⟨ws', ts, rfl, hl, hp1, hc, hk⟩ := path_pop hp hb (by
              intro X hX
              apply hC.bottom
              simp only [List.mem_reverse, LRCert.rule, List.getD_eq_getElem?_getD] at hX
              cases hr : C.rhs[r]? with
              | none => simp [hr] at hX
              | some xs =>
                simp only [hr, Option.getD_some] at hX
                exact List.mem_flatten.mpr ⟨xs, List.mem_of_getElem? hr, hX⟩)
            rw [List.length_reverse, hlen] at hl hp1 hc hk
            rw [List.reverse_reverse] at hc
            obtain ⟨v, hv, hm⟩ := hM.rule _ _ _ _ _ _ _ (by simpa using hact.1) hf hc ha h1
            simp only [if_neg (Nat.not_lt.mpr hl), hv]
            split at hk
            · simp at hk
            · rename_i g hg
              simp only [Bool.and_eq_true, decide_eq_true_eq, beq_iff_eq, bne_iff_ne, ne_eq] at hk
              obtain ⟨⟨⟨⟨he, hsym⟩, hgf⟩, hglt⟩, hgw⟩ := hk
              have hp' : Path num C M ((g, v) :: stk.drop len) (ws' ++ ts) (nextNum num input) :=
                ⟨ws', ts, rfl, by rw [hsym]; exact hm, he, hglt, hp1⟩
              have hsp := stackWeight_split (Nat.pos_of_ne_zero hne) hl hw
              have := ih _ _ _ hp' (fun h => absurd h hgf) (by
                simp only [stackWeight, List.map_cons, List.sum_cons] at hfuel hsp ⊢
                rw [if_neg (show ¬ topState ((g, v) :: stk.drop len) = T.final from hgf)]
                omega)
              exact this
          · simp at hred

end
end BeTree
