import Verif.Lemmas.LRRun
import Verif.Lemmas.XxSound
/-
The expression parser accepts what is in the grammar.
-/
namespace BeTree

/-- an expression with `and` and `or` built by the given functions -/
def buildWith (f g : Expr → Expr → Expr) : Expr → Expr
  | .leaf p => .leaf p
  | .not e => .not (buildWith f g e)
  | .and l r => f (buildWith f g l) (buildWith f g r)
  | .or l r => g (buildWith f g l) (buildWith f g r)

theorem buildWith_parse (e : Expr) : buildWith mkAnd mkOr e = parseBuild e := by
  induction e with
  | leaf p => rfl
  | not e ih => simp only [buildWith, parseBuild, ih]
  | and l r ih1 ih2 => simp only [buildWith, parseBuild, ih1, ih2]
  | or l r ih1 ih2 => simp only [buildWith, parseBuild, ih1, ih2]

theorem buildWith_self (e : Expr) : buildWith .and .or e = e := by
  induction e with
  | leaf p => rfl
  | not e ih => simp only [buildWith, ih]
  | and l r ih1 ih2 => simp only [buildWith, ih1, ih2]
  | or l r ih1 ih2 => simp only [buildWith, ih1, ih2]

section
variable {D : Nat} {f g : Expr → Expr → Expr}

/-- the tables of the expression parser with a stack of another size -/
def xxDeep (D : Nat) : LRTables := { xxTables with depth := D }

abbrev XRuns (D : Nat) (f g : Expr → Expr → Expr) := Runs (xxDeep D) Tok.num Tok.val PVal.token (xxActionWith f g)

theorem lrSim_deep (p la n : Nat) (src : List (Nat × PVal)) (ts : List Tok) :
    lrSim (xxDeep D) Tok.num Tok.val (xxActionWith f g) p la n src ts = lrSim xxTables Tok.num Tok.val (xxActionWith f g) p la n src ts := by
  induction n generalizing src ts with
  | zero => cases ts <;> rfl
  | succ n ih =>
    rw [lrSim, lrSim]
    simp only [ih]
    rfl

theorem xruns_sim {p la n : Nat} {src dst : List (Nat × PVal)} {ts : List Tok}
    (h : lrSim xxTables Tok.num Tok.val (xxActionWith f g) p la n src ts = some dst) :
    XRuns D f g p src ts la dst (src.length + ts.length) := runs_sim ((lrSim_deep p la n src ts).trans h)

/-- the states in which an expression can begin -/
def XAt (p : Nat) : Prop := p = 0 ∨ p = 2 ∨ p = 3 ∨ p = 62 ∨ p = 63
/-- the tokens that can follow an expression: end, `)`, `and`, `or` -/
def XAfter (la : Nat) : Prop := la = 0 ∨ la = 11 ∨ la = 18 ∨ la = 19

/-- the state after an expression -/
def xxState : Nat → Nat
  | 0 => 22
  | 2 => 40
  | 3 => 41
  | 62 => 101
  | _ => 102

theorem capType_unique {s : Str} {t : FreqType} (h : CapType s t) : t = freqTypeOf s := by
  rcases h with h | ⟨rfl, h⟩
  · cases t <;> simp [capTypeName] at h <;> subst h <;> decide
  · rcases capType_of s with h' | ⟨h', _⟩
    · exact absurd h' (h _)
    · exact h'.symm

theorem xx_ints {ts l} (h : ReadsInts ts l) : ∀ la, la = 11 ∨ la = 12 → XRuns D f g 95 [] ts la [(127, .ints l)] 5 := by
  induction h with
  | one h =>
    rintro la (rfl | rfl) <;> cases h
    · exact runs_le (xruns_sim (n := 3) rfl) (by simp)
    · exact runs_le (xruns_sim (n := 4) rfl) (by simp)
    · exact runs_le (xruns_sim (n := 3) rfl) (by simp)
    · exact runs_le (xruns_sim (n := 4) rfl) (by simp)
  | more h1 h2 ih =>
    intro la hla
    refine runs_le (runs_trans (ih 12 (Or.inr rfl)) ?_) (b := max 5 5) (by simp)
    rcases hla with rfl | rfl <;> cases h2
    · exact runs_le (xruns_sim (n := 4) rfl) (by simp)
    · exact runs_le (xruns_sim (n := 5) rfl) (by simp)
    · exact runs_le (xruns_sim (n := 4) rfl) (by simp)
    · exact runs_le (xruns_sim (n := 5) rfl) (by simp)

theorem xx_strs {ts l} (h : ReadsStrs ts l) : ∀ la, la = 11 ∨ la = 12 → XRuns D f g 95 [] ts la [(128, .strs l)] 5 := by
  induction h with
  | one s =>
    rintro la (rfl | rfl)
    · exact runs_le (xruns_sim (n := 3) rfl) (by simp)
    · exact runs_le (xruns_sim (n := 3) rfl) (by simp)
  | more s h1 ih =>
    intro la hla
    refine runs_le (runs_trans (ih 12 (Or.inr rfl)) ?_) (b := max 5 5) (by simp)
    rcases hla with rfl | rfl
    · exact runs_le (xruns_sim (n := 4) rfl) (by simp)
    · exact runs_le (xruns_sim (n := 4) rfl) (by simp)

/-- tokens read as an expression wherever one can stand -/
def XReads (D : Nat) (f g : Expr → Expr → Expr) (ts : List Tok) (e : Expr) (b : Nat) : Prop :=
  ∀ p la, XAt p → XAfter la → XRuns D f g p [] ts la [(xxState p, .node e)] b

/-- for every place and follower -/
def Each (f : Nat → Nat → Prop) : Prop :=
  (f 0 0 ∧ f 0 11 ∧ f 0 18 ∧ f 0 19) ∧ (f 2 0 ∧ f 2 11 ∧ f 2 18 ∧ f 2 19) ∧ (f 3 0 ∧ f 3 11 ∧ f 3 18 ∧ f 3 19) ∧
    (f 62 0 ∧ f 62 11 ∧ f 62 18 ∧ f 62 19) ∧ (f 63 0 ∧ f 63 11 ∧ f 63 18 ∧ f 63 19)

theorem each {f : Nat → Nat → Prop} (h : Each f) (p la : Nat) (hp : XAt p) (hla : XAfter la) : f p la := by
  obtain ⟨⟨_, _, _, _⟩, ⟨_, _, _, _⟩, ⟨_, _, _, _⟩, ⟨_, _, _, _⟩, ⟨_, _, _, _⟩⟩ := h
  rcases hp with rfl | rfl | rfl | rfl | rfl <;> rcases hla with rfl | rfl | rfl | rfl <;> assumption

theorem xx_reads {ts : List Tok} {e : Expr} (n : Nat)
    (h : Each fun p la => lrSim xxTables Tok.num Tok.val (xxActionWith f g) p la n [] ts = some [(xxState p, .node e)])
    (hts : ts.length ≤ 20) : XReads D f g ts e 20 := fun p la hp hla =>
  runs_le (xruns_sim (each h p la hp hla)) (by simpa using hts)

local macro "xx_all" : term => `(⟨⟨rfl, rfl, rfl, rfl⟩, ⟨rfl, rfl, rfl, rfl⟩, ⟨rfl, rfl, rfl, rfl⟩, ⟨rfl, rfl, rfl, rfl⟩, ⟨rfl, rfl, rfl, rfl⟩⟩)

local macro "xx_steps" n:num : tactic => `(tactic| exact xx_reads $n xx_all (by simp))

theorem xx_list {ts : List Tok} {src : List (Nat × PVal)} {ti : List Tok} {v : PVal} {q n : Nat} {e : Expr}
    (h1 : ∀ la, Each fun p _ => lrSim xxTables Tok.num Tok.val (xxActionWith f g) p la n [] (ti ++ [.lparen]) = some ((95, .token) :: src))
    (h2 : ∀ la, la = 11 ∨ la = 12 → XRuns D f g 95 [] ts la [(q, v)] 5)
    (h3 : Each fun p la =>
      lrSim xxTables Tok.num Tok.val (xxActionWith f g) p la 5 ((q, v) :: (95, .token) :: src) [.rparen] = some [(xxState p, .node e)])
    (hti : ti.length ≤ 8) (hs : src.length ≤ 5) : XReads D f g (ti ++ .lparen :: ts ++ [.rparen]) e 20 := by
  intro p la hp hla
  have r1 : XRuns D f g p [] (ti ++ [.lparen]) (nextOr Tok.num (ts ++ [.rparen]) la) ((95, .token) :: src) _ := 
    xruns_sim (each (h1 _) p 0 hp (Or.inl rfl))
  have r2 : XRuns D f g p ([] ++ (95, .token) :: src) ts 11 ([(q, v)] ++ (95, .token) :: src) _ := runs_above (h2 11 (Or.inl rfl)) rfl
  have r3 : XRuns D f g p ((q, v) :: (95, .token) :: src) [.rparen] la [(xxState p, .node e)] _ := xruns_sim (each h3 p la hp hla)
  have := runs_trans r1 (runs_trans r2 r3)
  rw [show ti ++ .lparen :: ts ++ [.rparen] = ti ++ [.lparen] ++ (ts ++ [.rparen]) by simp]
  refine runs_le this ?_
  simp only [List.length_append, List.length_cons, List.length_nil]
  omega

set_option maxHeartbeats 4000000 in
theorem xx_isNull {t o} (x : Str) (hs : NullSign t o) : XReads D f g ([.ident x, t]) (.leaf (.isNull o (named x))) 20 := by
  cases hs <;> xx_steps 5

set_option maxHeartbeats 4000000 in
theorem xx_compare {t o o' ts c} (x : Str) (hs : CmpSign t o o') (hc : ReadsNum ts c) : XReads D f g (.ident x :: t :: ts) (.leaf (.compare o (named x) c)) 20 := by
  cases hs <;> (cases hc with
    | int h => cases h; · xx_steps 8
               · xx_steps 9
    | float h => cases h; · xx_steps 8
                 · xx_steps 9)

set_option maxHeartbeats 4000000 in
theorem xx_compareLeft {t o o' ts c} (x : Str) (hs : CmpSign t o o') (hc : ReadsNum ts c) : XReads D f g (ts ++ [t, .ident x]) (.leaf (.compare o' (named x) c)) 20 := by
  cases hs <;> (cases hc with
    | int h => cases h; · xx_steps 8
               · xx_steps 9
    | float h => cases h; · xx_steps 8
                 · xx_steps 9)

set_option maxHeartbeats 4000000 in
theorem xx_equality {t o ts c} (x : Str) (hs : EqSign t o) (hc : ReadsConst ts c) : XReads D f g (.ident x :: t :: ts) (.leaf (.equality o (named x) c)) 20 := by
  cases hs <;> (cases hc with
    | int h => cases h; · xx_steps 8
               · xx_steps 9
    | float h => cases h; · xx_steps 8
                 · xx_steps 9
    | string s => xx_steps 8)

set_option maxHeartbeats 4000000 in
theorem xx_equalityLeft {t o ts c} (x : Str) (hs : EqSign t o) (hc : ReadsConst ts c) : XReads D f g (ts ++ [t, .ident x]) (.leaf (.equality o (named x) c)) 20 := by
  cases hs <;> (cases hc with
    | int h => cases h; · xx_steps 8
               · xx_steps 9
    | float h => cases h; · xx_steps 8
                 · xx_steps 9
    | string s => xx_steps 8)

set_option maxHeartbeats 4000000 in
theorem xx_set {t o ts l ts' r} (hs : SetSign t o) (hl : ReadsLeft ts l) (hr : ReadsRight ts' r) : XReads D f g (ts ++ t :: ts') (.leaf (.set o l r)) 20 := by
  cases hs <;> (cases hl with
    | int h =>
      cases h
      · cases hr with
        | ints h => exact xx_list (ti := [_, _]) (n := 5) (fun _ => xx_all) (xx_ints h) xx_all (by simp) (by simp)
        | strs h => exact xx_list (ti := [_, _]) (n := 5) (fun _ => xx_all) (xx_strs h) xx_all (by simp) (by simp)
        | var y => xx_steps 10
      · cases hr with
        | ints h => exact xx_list (ti := [_, _, _]) (n := 6) (fun _ => xx_all) (xx_ints h) xx_all (by simp) (by simp)
        | strs h => exact xx_list (ti := [_, _, _]) (n := 6) (fun _ => xx_all) (xx_strs h) xx_all (by simp) (by simp)
        | var y => xx_steps 11
    | string s =>
      cases hr with
      | ints h => exact xx_list (ti := [_, _]) (n := 5) (fun _ => xx_all) (xx_ints h) xx_all (by simp) (by simp)
      | strs h => exact xx_list (ti := [_, _]) (n := 5) (fun _ => xx_all) (xx_strs h) xx_all (by simp) (by simp)
      | var y => xx_steps 10
    | var x =>
      cases hr with
      | ints h => exact xx_list (ti := [_, _]) (n := 6) (fun _ => xx_all) (xx_ints h) xx_all (by simp) (by simp)
      | strs h => exact xx_list (ti := [_, _]) (n := 6) (fun _ => xx_all) (xx_strs h) xx_all (by simp) (by simp)
      | var y => xx_steps 11)

set_option maxHeartbeats 4000000 in
theorem xx_listAtom {t o ts l} (x : Str) (hs : ListSign t o) (hl : ReadsList ts l) : XReads D f g (.ident x :: t :: ts) (.leaf (.list o (named x) l)) 20 := by
  cases hs <;> (cases hl with
    | ints h => exact xx_list (ti := [_, _]) (n := 4) (fun _ => xx_all) (xx_ints h) xx_all (by simp) (by simp)
    | strs h => exact xx_list (ti := [_, _]) (n := 4) (fun _ => xx_all) (xx_strs h) xx_all (by simp) (by simp))

set_option maxHeartbeats 4000000 in
theorem xx_atom {ts a} (h : ReadsAtom ts a) : XReads D f g ts (.leaf a) 20 := by
  cases h with
  | isNull x hs => exact xx_isNull x hs
  | compare x hs hc => exact xx_compare x hs hc
  | compareLeft x hs hc => exact xx_compareLeft x hs hc
  | equality x hs hc => exact xx_equality x hs hc
  | equalityLeft x hs hc => exact xx_equalityLeft x hs hc
  | set hs hl hr => exact xx_set hs hl hr
  | list x hs hl => exact xx_listAtom x hs hl
  | boolVar x => xx_steps 4
  | true => xx_steps 3
  | false => xx_steps 3
  | freq s ns ht h1 h2 =>
    obtain rfl := capType_unique ht
    cases h1 <;> cases h2
    · xx_steps 16
    · xx_steps 17
    · xx_steps 17
    · xx_steps 18
  | segment hs h1 h2 =>
    cases hs <;> cases h1 <;> cases h2
    · xx_steps 11
    · xx_steps 12
    · xx_steps 12
    · xx_steps 13
    · xx_steps 11
    · xx_steps 12
    · xx_steps 12
    · xx_steps 13
  | segmentVar x hs h1 h2 =>
    cases hs <;> cases h1 <;> cases h2
    · xx_steps 14
    · xx_steps 15
    · xx_steps 15
    · xx_steps 16
    · xx_steps 14
    · xx_steps 15
    · xx_steps 15
    · xx_steps 16
  | geoInt h1 h2 h3 =>
    cases h1 <;> cases h2 <;> cases h3
    · xx_steps 14
    · xx_steps 15
    · xx_steps 15
    · xx_steps 16
    · xx_steps 15
    · xx_steps 16
    · xx_steps 16
    · xx_steps 17
  | geoFloat h1 h2 h3 =>
    cases h1 <;> cases h2 <;> cases h3
    · xx_steps 14
    · xx_steps 15
    · xx_steps 15
    · xx_steps 16
    · xx_steps 15
    · xx_steps 16
    · xx_steps 16
    · xx_steps 17
  | str x s hs => cases hs <;> xx_steps 11

/-- where a level can be read -/
def XFits : Level → Nat → Nat → Prop
  | .unary, p, la => XAt p ∧ XAfter la
  | .and, p, la => (p = 0 ∨ p = 2 ∨ p = 63) ∧ XAfter la
  | .or, p, la => (p = 0 ∨ p = 2) ∧ (la = 0 ∨ la = 11 ∨ la = 19)

/-- places needed -/
def xxRoom : Level → Nat → Nat
  | .unary, d => 5 * d + 20
  | .and, d => 5 * d + 22
  | .or, d => 5 * d + 24

theorem xx_complete {l d ts e} (h : Reads l d ts e) : ∀ p la, XFits l p la →
    XRuns D f g p [] ts la [(xxState p, .node (buildWith f g e))] (xxRoom l d) := by
  induction h with
  | atom d h => intro p la hf; exact runs_le (xx_atom h p la hf.1 hf.2) (by simp [xxRoom])
  | @paren d ts e h ih =>
    rintro p la ⟨hp, hla⟩
    have r1 : XRuns D f g p [] [.lparen] (nextOr Tok.num (ts ++ [.rparen]) la) [(2, .token)] _ :=
      xruns_sim (n := 1) (by rcases hp with rfl | rfl | rfl | rfl | rfl <;> rfl)
    have r2 : XRuns D f g p ([] ++ [(2, .token)]) ts 11 _ _ := runs_above (ih 2 11 ⟨Or.inr rfl, Or.inr (Or.inl rfl)⟩) rfl
    have r3 : XRuns D f g p [(40, .node (buildWith f g e)), (2, .token)] [.rparen] la [(xxState p, .node (buildWith f g e))] _ :=
      xruns_sim (n := 2) (by
        rcases hp with rfl | rfl | rfl | rfl | rfl <;> rcases hla with rfl | rfl | rfl | rfl <;> rfl)
    have := runs_trans r1 (runs_trans r2 r3)
    refine runs_le (by simpa using this) ?_
    simp only [xxRoom, List.length]
    omega
  | @not d ts e h ih =>
    rintro p la ⟨hp, hla⟩
    have r1 : XRuns D f g p [] [.not] (nextOr Tok.num ts la) [(3, .token)] _ :=
      xruns_sim (n := 1) (by rcases hp with rfl | rfl | rfl | rfl | rfl <;> rfl)
    have r2 : XRuns D f g p ([] ++ [(3, .token)]) ts la _ _ := runs_above (ih 3 la ⟨Or.inr (Or.inr (Or.inl rfl)), hla⟩) rfl
    have r3 : XRuns D f g p [(41, .node (buildWith f g e)), (3, .token)] [] la [(xxState p, .node (.not (buildWith f g e)))] _ :=
      xruns_sim (n := 2) (by
        rcases hp with rfl | rfl | rfl | rfl | rfl <;> rcases hla with rfl | rfl | rfl | rfl <;> rfl)
    have := runs_trans r1 (runs_then r2 r3)
    refine runs_le this ?_
    simp only [xxRoom, List.length]
    omega
  | one h ih =>
    rintro p la ⟨hp, hla⟩
    refine runs_le (ih p la ⟨?_, hla⟩) (by simp [xxRoom])
    rcases hp with rfl | rfl | rfl <;> simp [XAt]
  | @and d t1 t2 l r h1 h2 ih1 ih2 =>
    rintro p la ⟨hp, hla⟩
    have r1 : XRuns D f g p [] t1 18 _ _ := ih1 p 18 ⟨hp, by simp [XAfter]⟩
    have r2 : XRuns D f g p [(xxState p, .node (buildWith f g l))] [.and] (nextOr Tok.num t2 la)
        [(62, .token), (xxState p, .node (buildWith f g l))] _ :=
      xruns_sim (n := 1) (by rcases hp with rfl | rfl | rfl <;> rfl)
    have r3 : XRuns D f g p ([] ++ [(62, .token), (xxState p, .node (buildWith f g l))]) t2 la _ _ :=
      runs_above (ih2 62 la ⟨by simp [XAt], hla⟩) rfl
    have r4 : XRuns D f g p [(101, .node (buildWith f g r)), (62, .token), (xxState p, .node (buildWith f g l))] [] la
        [(xxState p, .node (f (buildWith f g l) (buildWith f g r)))] _ :=
      xruns_sim (n := 2) (by
        rcases hp with rfl | rfl | rfl <;> rcases hla with rfl | rfl | rfl | rfl <;> rfl)
    have := runs_trans (la := la) (t2 := .and :: t2) r1 (runs_trans r2 (runs_then r3 r4))
    refine runs_le this ?_
    simp only [xxRoom, List.length]
    omega
  | only h ih =>
    rintro p la ⟨hp, hla⟩
    refine runs_le (ih p la ⟨?_, ?_⟩) (by simp [xxRoom])
    · rcases hp with rfl | rfl <;> simp
    · rcases hla with rfl | rfl | rfl <;> simp [XAfter]
  | @or d t1 t2 l r h1 h2 ih1 ih2 =>
    rintro p la ⟨hp, hla⟩
    have r1 : XRuns D f g p [] t1 19 _ _ := ih1 p 19 ⟨hp, by simp⟩
    have r2 : XRuns D f g p [(xxState p, .node (buildWith f g l))] [.or] (nextOr Tok.num t2 la)
        [(63, .token), (xxState p, .node (buildWith f g l))] _ :=
      xruns_sim (n := 1) (by rcases hp with rfl | rfl <;> rfl)
    have r3 : XRuns D f g p ([] ++ [(63, .token), (xxState p, .node (buildWith f g l))]) t2 la _ _ :=
      runs_above (ih2 63 la ⟨by simp, by rcases hla with rfl | rfl | rfl <;> simp [XAfter]⟩) rfl
    have r4 : XRuns D f g p [(102, .node (buildWith f g r)), (63, .token), (xxState p, .node (buildWith f g l))] [] la
        [(xxState p, .node (g (buildWith f g l) (buildWith f g r)))] _ :=
      xruns_sim (n := 2) (by
        rcases hp with rfl | rfl <;> rcases hla with rfl | rfl | rfl <;> rfl)
    have := runs_trans (la := la) (t2 := .or :: t2) r1 (runs_trans r2 (runs_then r3 r4))
    refine runs_le this ?_
    simp only [xxRoom, List.length]
    omega

theorem xx_run {d ts e} (h : Reads .or d ts e) (hd : 5 * d + 50 < D) (f g : Expr → Expr → Expr) :
    ∃ k, lrRun (xxDeep D) Tok.num Tok.val .token (xxActionWith f g) k [] ts = .ok (some (.node (buildWith f g e))) := by
  have r1 := xx_complete (D := D) (f := f) (g := g) h 0 0 ⟨Or.inl rfl, Or.inl rfl⟩
  obtain ⟨k, hk⟩ := r1 [] [] rfl rfl (by simp only [xxRoom, xxDeep, List.length_nil]; omega)
  have h2 : lrRun (xxDeep D) Tok.num Tok.val .token (xxActionWith f g) 3 [(22, .node (buildWith f g e))] ([] : List Tok)
      = .ok (some (.node (buildWith f g e))) := by
    obtain ⟨D, rfl⟩ : ∃ n, D = n + 5 := ⟨D - 5, by omega⟩
    rfl
  refine ⟨3 + k, ?_⟩
  have := hk 3
  simp only [List.append_nil] at this
  rw [this]
  exact h2

end

/-- a result does not depend on the number of steps allowed -/
theorem lrRun_unique {τ V : Type} {T : LRTables} {num : τ → Nat} {val : τ → V} {eofVal : V} {action : Nat → List V → Except Fault V}
    {stk : List (Nat × V)} {input : List τ} {k k' : Nat} {r r' : Option V}
    (h : lrRun T num val eofVal action k stk input = .ok r) (h' : lrRun T num val eofVal action k' stk input = .ok r') : r = r' := by
  have a := lrRun_more h k'
  have b := lrRun_more h' k
  rw [Nat.add_comm k'] at b
  rw [a] at b
  exact Except.ok.inj b

/-- a token sequence has one reading -/
theorem reads_unique {d d' ts e e'} (h : Reads .or d ts e) (h' : Reads .or d' ts e') : e = e' := by
  obtain ⟨k, hk⟩ := xx_run (D := 5 * d + 5 * d' + 51) h (by omega) .and .or
  obtain ⟨k', hk'⟩ := xx_run (D := 5 * d + 5 * d' + 51) h' (by omega) .and .or
  have := lrRun_unique hk hk'
  simp only [Option.some.injEq, PVal.node.injEq, buildWith_self] at this
  exact this

/-- `xxparse` never fails on its own: it refuses, or gives the expression some reading of the tokens says -/
theorem xx_parse (ts : List Tok) : parseTokens ts = .ok none ∨ ∃ d e, Reads .or d ts e ∧ parseTokens ts = .ok (some (parseBuild e)) := by
  have h := lrRun_sound (val := Tok.val) (eofVal := PVal.token) (action := xxAction) xxCert_ok xx_closed (11 * (ts.length + 1) + 2)
    [] ts [] rfl (fun h => by simp [topState, xxTables] at h) (by
      rw [if_neg (show ¬ topState ([] : List (Nat × PVal)) = xxTables.final by decide)]
      simp only [stackWeight, List.map_nil, List.sum_nil]; omega)
  rcases h with h | ⟨v, h, d, e, hr, rfl⟩
  · exact Or.inl (by simp only [parseTokens, h])
  · exact Or.inr ⟨d, e, by simpa using hr, by simp only [parseTokens, h]⟩

/-- ... and it accepts every reading that is not nested too deep -/
theorem xx_accepts {d ts e} (h : Reads .or d ts e) (hd : d < 1990) : parseTokens ts = .ok (some (parseBuild e)) := by
  obtain ⟨k, hk⟩ := xx_run (D := 10000) h (by omega) mkAnd mkOr
  replace hk : lrRun xxTables Tok.num Tok.val .token xxAction k [] ts = .ok (some (.node (buildWith mkAnd mkOr e))) := hk
  rw [buildWith_parse] at hk
  have h4 := lrRun_sound (val := Tok.val) (eofVal := PVal.token) (action := xxAction) xxCert_ok xx_closed (11 * (ts.length + 1) + 2)
    [] ts [] rfl (fun h => by simp [topState, xxTables] at h) (by
      rw [if_neg (show ¬ topState ([] : List (Nat × PVal)) = xxTables.final by decide)]
      simp only [stackWeight, List.map_nil, List.sum_nil]; omega)
  rcases h4 with h | ⟨v, h, _⟩
  · cases lrRun_unique hk h
  · cases lrRun_unique hk h
    simp only [parseTokens, h]

/-- too many opening parentheses exhaust the stack -/
theorem xx_deep (ts : List Tok) : ∀ (n k fuel : Nat) (stk : List (Nat × PVal)), k = stk.length → xxTables.depth ≤ k + n + 1 → n ≤ fuel →
    (topState stk = 0 ∨ topState stk = 2) →
    lrRun xxTables Tok.num Tok.val .token xxAction (fuel + 1) stk (List.replicate n .lparen ++ ts) = .ok none := by
  intro n
  induction n with
  | zero =>
    intro k fuel stk hk hn _ _
    rw [lrRun_succ, if_pos (by omega)]
  | succ n ih =>
    intro k fuel stk hk hn hfuel htop
    rw [lrRun_succ]
    by_cases hd : xxTables.depth ≤ stk.length + 1
    · rw [if_pos hd]
    · rw [if_neg hd, if_neg (by rcases htop with h | h <;> rw [h] <;> decide)]
      have ha : xxTables.act (topState stk) 10 = .shift 2 := by
        rcases htop with h | h <;> rw [h] <;> decide +kernel
      obtain ⟨fuel, rfl⟩ : ∃ m, fuel = m + 1 := ⟨fuel - 1, by omega⟩
      simp only [List.replicate_succ, List.cons_append, nextNum, Tok.num, ha]
      exact ih (k + 1) fuel _ (by simp [hk]) (by omega) (by omega) (Or.inr rfl)

end BeTree
