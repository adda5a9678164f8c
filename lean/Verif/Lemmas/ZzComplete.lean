import Verif.Lemmas.LRRun
import Verif.Lemmas.ZzSound
import Verif.Lemmas.XxComplete
/-
The event parser accepts what is in the grammar.
-/
namespace BeTree

abbrev ZRuns := Runs zzTables ETok.num ETok.val EPVal.token zzAction

/-- a run of a small fixed number of steps -/
local macro "zz_step" n:num : tactic => `(tactic| exact runs_le (runs_sim (n := $n) rfl) (by simp))

theorem zz_ints {ts l} (h : EvMany EvInt ts l) : ∀ la, la = 6 ∨ la = 7 → ZRuns 11 [] ts la [(35, .ints l)] 30 := by
  induction h with
  | one h =>
    rintro la (rfl | rfl) <;> cases h
    · zz_step 3
    · zz_step 4
    · zz_step 3
    · zz_step 4
  | more h1 h2 ih =>
    intro la hla
    refine runs_le (runs_trans (ih 7 (Or.inr rfl)) ?_) (b := max 30 30) (by simp)
    rcases hla with rfl | rfl <;> cases h2
    · zz_step 4
    · zz_step 5
    · zz_step 4
    · zz_step 5

theorem zz_strs {ts l} (h : EvMany EvStr ts l) : ∀ la, la = 6 ∨ la = 7 → ZRuns 11 [] ts la [(36, .strs l)] 30 := by
  induction h with
  | one h =>
    rintro la (rfl | rfl) <;> cases h
    · zz_step 3
    · zz_step 3
  | more h1 h2 ih =>
    intro la hla
    refine runs_le (runs_trans (ih 7 (Or.inr rfl)) ?_) (b := max 30 30) (by simp)
    rcases hla with rfl | rfl <;> cases h2
    · zz_step 4
    · zz_step 4

set_option maxHeartbeats 1000000 in
theorem zz_segs {ts l} (h : EvMany EvSeg ts l) : ∀ la, la = 6 ∨ la = 7 → ZRuns 11 [] ts la [(37, .segs l)] 30 := by
  induction h with
  | one h =>
    rintro la (rfl | rfl) <;> cases h with
    | mk h1 h2 =>
      cases h1 <;> cases h2
      · zz_step 9
      · zz_step 10
      · zz_step 10
      · zz_step 11
  | more h1 h2 ih =>
    intro la hla
    refine runs_le (runs_trans (ih 7 (Or.inr rfl)) ?_) (b := max 30 30) (by simp)
    rcases hla with rfl | rfl <;> cases h2 with
    | mk h1 h2 =>
      cases h1 <;> cases h2
      · zz_step 10
      · zz_step 11
      · zz_step 11
      · zz_step 12

set_option maxHeartbeats 4000000 in
theorem zz_caps {ts l} (h : EvMany EvCap ts l) : ∀ la, la = 6 ∨ la = 7 → ZRuns 11 [] ts la [(39, .caps l)] 30 := by
  induction h with
  | one h =>
    rintro la (rfl | rfl) <;> cases h with
    | flat s ns hc h1 h2 h3 =>
      obtain rfl := capType_unique hc
      cases h1 <;> cases h2 <;> cases h3
      · zz_step 17
      · zz_step 18
      · zz_step 18
      · zz_step 19
      · zz_step 18
      · zz_step 19
      · zz_step 19
      · zz_step 20
    | nested s ns hc h1 h2 h3 =>
      obtain rfl := capType_unique hc
      cases h1 <;> cases h2 <;> cases h3
      · zz_step 19
      · zz_step 20
      · zz_step 20
      · zz_step 21
      · zz_step 20
      · zz_step 21
      · zz_step 21
      · zz_step 22
  | more h1 h2 ih =>
    intro la hla
    refine runs_le (runs_trans (ih 7 (Or.inr rfl)) ?_) (b := max 30 30) (by simp)
    rcases hla with rfl | rfl <;> cases h2 with
    | flat s ns hc h1 h2 h3 =>
      obtain rfl := capType_unique hc
      cases h1 <;> cases h2 <;> cases h3
      · zz_step 18
      · zz_step 19
      · zz_step 19
      · zz_step 20
      · zz_step 19
      · zz_step 20
      · zz_step 20
      · zz_step 21
    | nested s ns hc h1 h2 h3 =>
      obtain rfl := capType_unique hc
      cases h1 <;> cases h2 <;> cases h3
      · zz_step 20
      · zz_step 21
      · zz_step 21
      · zz_step 22
      · zz_step 21
      · zz_step 22
      · zz_step 22
      · zz_step 23

theorem zz_list {ts : List ETok} {q : Nat} {v : EPVal} {x : Value} (h : ZRuns 11 [] ts 6 [(q, v)] 30)
    (h3 : ∀ la, la = 4 ∨ la = 7 → lrSim zzTables ETok.num ETok.val zzAction 8 la 3 [(q, v), (11, .token)] [.rsquare] =
      some [(19, .value x)]) : ∀ la, la = 4 ∨ la = 7 → ZRuns 8 [] (.lsquare :: ts ++ [.rsquare]) la [(19, .value x)] 40 := by
  intro la hla
  have r1 : ZRuns 8 [] [.lsquare] (nextOr ETok.num (ts ++ [.rsquare]) la) [(11, .token)] _ := runs_sim (n := 1) rfl
  have r2 : ZRuns 8 ([] ++ [(11, .token)]) ts 6 ([(q, v)] ++ [(11, .token)]) _ := runs_above h rfl
  have r3 : ZRuns 8 [(q, v), (11, .token)] [.rsquare] la [(19, .value x)] _ := runs_sim (h3 la hla)
  change ZRuns 8 [] ([.lsquare] ++ (ts ++ [.rsquare])) la _ _
  refine runs_le (runs_trans r1 (runs_trans r2 r3)) ?_
  simp only [List.length_cons, List.length_nil]
  omega

theorem zz_value {ts v} (h : EvValue ts v) : ∀ la, la = 4 ∨ la = 7 → ZRuns 8 [] ts la [(19, .value v)] 40 := by
  cases h with
  | true => rintro la (rfl | rfl) <;> zz_step 3
  | false => rintro la (rfl | rfl) <;> zz_step 3
  | int h =>
    rintro la (rfl | rfl) <;> cases h
    · zz_step 3
    · zz_step 4
    · zz_step 3
    · zz_step 4
  | float h =>
    rintro la (rfl | rfl) <;> cases h
    · zz_step 3
    · zz_step 4
    · zz_step 3
    · zz_step 4
  | string h => rintro la (rfl | rfl) <;> cases h <;> zz_step 3
  | empty => rintro la (rfl | rfl) <;> zz_step 4
  | ints h => exact zz_list (zz_ints h 6 (Or.inl rfl)) (by rintro la (rfl | rfl) <;> rfl)
  | strs h => exact zz_list (zz_strs h 6 (Or.inl rfl)) (by rintro la (rfl | rfl) <;> rfl)
  | segs h => exact zz_list (zz_segs h 6 (Or.inl rfl)) (by rintro la (rfl | rfl) <;> rfl)
  | caps h => exact zz_list (zz_caps h 6 (Or.inl rfl)) (by rintro la (rfl | rfl) <;> rfl)

/-- the state after a variable -/
def zzState : Nat → Nat
  | 1 => 6
  | _ => 29

theorem zz_var {ts o} (h : EvVar ts o) : ∀ p la, p = 1 ∨ p = 10 → la = 4 ∨ la = 7 →
    ZRuns p [] ts la [(zzState p, .variable o)] 50 := by
  intro p la hp hla
  cases h with
  | null x => rcases hp with rfl | rfl <;> rcases hla with rfl | rfl <;> zz_step 4
  | @value ts v x h =>
    have r1 : ZRuns p [] [.string x, .colon] (nextOr ETok.num ts la) [(8, .token), (4, .string x)] _ :=
      runs_sim (n := 2) (by rcases hp with rfl | rfl <;> rfl)
    have r2 : ZRuns p ([] ++ [(8, .token), (4, .string x)]) ts la ([(19, .value v)] ++ [(8, .token), (4, .string x)]) _ :=
      runs_above (zz_value h la hla) rfl
    have r3 : ZRuns p [(19, .value v), (8, .token), (4, .string x)] [] la [(zzState p, .variable (some ⟨x, v⟩))] _ :=
      runs_sim (n := 1) (by rcases hp with rfl | rfl <;> rcases hla with rfl | rfl <;> rfl)
    refine runs_le (runs_trans r1 (runs_then r2 r3)) ?_
    simp only [List.length_cons, List.length_nil]
    omega

theorem zz_vars {ts l} (h : EvMany EvVar ts l) : ∀ la, la = 4 ∨ la = 7 → ZRuns 1 [] ts la [(5, .event (l.filterMap id))] 60 := by
  induction h with
  | @one ts o h =>
    intro la hla
    have r1 : ZRuns 1 [] ts la [(6, .variable o)] _ := zz_var h 1 la (Or.inl rfl) hla
    have r2 : ZRuns 1 [(6, .variable o)] [] la [(5, .event (addVariable o []))] _ :=
      runs_sim (n := 1) (by rcases hla with rfl | rfl <;> rfl)
    have e : addVariable o [] = [o].filterMap id := by cases o <;> rfl
    rw [← e]
    exact runs_le (runs_then r1 r2) (by simp)
  | @more ts l ts' o h1 h2 ih =>
    intro la hla
    have r1 : ZRuns 1 [] ts 7 [(5, .event (l.filterMap id))] _ := ih 7 (Or.inr rfl)
    have r2 : ZRuns 1 [(5, .event (l.filterMap id))] [.comma] (nextOr ETok.num ts' la) [(10, .token), (5, .event (l.filterMap id))] _ :=
      runs_sim (n := 1) rfl
    have r3 : ZRuns 1 ([] ++ [(10, .token), (5, .event (l.filterMap id))]) ts' la
        ([(29, .variable o)] ++ [(10, .token), (5, .event (l.filterMap id))]) _ :=
      runs_above (zz_var h2 10 la (Or.inr rfl) hla) rfl
    have r4 : ZRuns 1 [(29, .variable o), (10, .token), (5, .event (l.filterMap id))] [] la
        [(5, .event (addVariable o (l.filterMap id)))] _ :=
      runs_sim (n := 1) (by rcases hla with rfl | rfl <;> rfl)
    have e : addVariable o (l.filterMap id) = (l ++ [o]).filterMap id := by cases o <;> simp [addVariable]
    rw [← e]
    refine runs_le (runs_trans (la := la) (t2 := .comma :: ts') r1 (runs_trans r2 (runs_then r3 r4))) ?_
    simp only [List.length_cons, List.length_nil]
    omega

theorem zz_run {ts l} (h : EvEvent ts l) :
    ∃ k, lrRun zzTables ETok.num ETok.val .token zzAction k [] ts = .ok (some (.event l)) := by
  have key : ZRuns 0 [] ts 0 [(2, .event l)] 70 := by
    cases h with
    | empty => zz_step 3
    | @vars ts l h =>
      have r1 : ZRuns 0 [] [.lcurly] (nextOr ETok.num (ts ++ [.rcurly]) 0) [(1, .token)] _ := runs_sim (n := 1) rfl
      have r2 : ZRuns 0 ([] ++ [(1, .token)]) ts 4 ([(5, .event (l.filterMap id))] ++ [(1, .token)]) _ :=
        runs_above (zz_vars h 4 (Or.inl rfl)) rfl
      have r3 : ZRuns 0 [(5, .event (l.filterMap id)), (1, .token)] [.rcurly] 0 [(2, .event (l.filterMap id))] _ :=
        runs_sim (n := 2) rfl
      change ZRuns 0 [] ([.lcurly] ++ (ts ++ [.rcurly])) 0 _ _
      refine runs_le (runs_trans r1 (runs_trans r2 r3)) ?_
      simp only [List.length_cons, List.length_nil]
      omega
  obtain ⟨k, hk⟩ := key [] [] rfl rfl (by simp only [zzTables, List.length_nil]; omega)
  have h2 : lrRun zzTables ETok.num ETok.val .token zzAction 3 [(2, .event l)] ([] : List ETok) = .ok (some (.event l)) := rfl
  refine ⟨3 + k, ?_⟩
  have := hk 3
  simp only [List.append_nil] at this
  rw [this]
  exact h2

theorem zz_parse (ts : List ETok) : parseEventTokens ts = .ok none ∨ ∃ l, EvEvent ts l ∧ parseEventTokens ts = .ok (some l) := by
  have h := lrRun_sound (val := ETok.val) (eofVal := EPVal.token) (action := zzAction) zzCert_ok zz_closed (11 * (ts.length + 1) + 2)
    [] ts [] rfl (fun h => by simp [topState, zzTables] at h) (by
      rw [if_neg (show ¬ topState ([] : List (Nat × EPVal)) = zzTables.final by decide)]
      simp only [stackWeight, List.map_nil, List.sum_nil]; omega)
  rcases h with h | ⟨v, h, l, hr, rfl⟩
  · exact Or.inl (by simp only [parseEventTokens, h])
  · exact Or.inr ⟨l, by simpa using hr, by simp only [parseEventTokens, h]⟩

theorem zz_accepts {ts l} (h : EvEvent ts l) : parseEventTokens ts = .ok (some l) := by
  obtain ⟨k, hk⟩ := zz_run h
  have h4 := lrRun_sound (val := ETok.val) (eofVal := EPVal.token) (action := zzAction) zzCert_ok zz_closed (11 * (ts.length + 1) + 2)
    [] ts [] rfl (fun h => by simp [topState, zzTables] at h) (by
      rw [if_neg (show ¬ topState ([] : List (Nat × EPVal)) = zzTables.final by decide)]
      simp only [stackWeight, List.map_nil, List.sum_nil]; omega)
  rcases h4 with h | ⟨v, h, _⟩
  · cases lrRun_unique hk h
  · obtain rfl := Option.some.inj (lrRun_unique hk h)
    simp only [parseEventTokens, h]

end BeTree
