import Verif.Lemmas.World
import Verif.Model.Search
import Verif.Props.Bits
import Verif.Props.EqExpr
/-
Memoisation: what a search stores in its memo tables is what evaluation gives.
-/
namespace BeTree
open Spec

/-- all clock references of a stored expression have id `n` -/
def ClockVar (n : Nat) : Expr → Prop
  | .leaf (.freq f) => f.now.var = n
  | .leaf (.segment s) => s.now.var = n
  | .leaf _ => True
  | .not e => ClockVar n e
  | .and l r => ClockVar n l ∧ ClockVar n r
  | .or l r => ClockVar n l ∧ ClockVar n r

theorem map_str_core {l m : List StrVal} (h : l.map strCore = m.map strCore) : l.map StrVal.str = m.map StrVal.str :=
  (map_inj_iff strCore StrVal.str strCore_inj l m).1 h

theorem withinFrequencyCaps_ns {t : FreqType} {i : Nat} {a b : StrVal} {v l : Nat} {n : Int} (h : a.str = b.str)
    (cs : List FreqCap) : withinFrequencyCaps t i a v l n cs = withinFrequencyCaps t i b v l n cs := by
  induction cs with
  | nil => rfl
  | cons c cs ih => simp only [withinFrequencyCaps, h, ih]

/-- the same predicate evaluates alike -/
theorem same_matchPred {n : Nat} {p q : Pred} (geo : GeoTest) (env : Env) (h : predCore p = predCore q)
    (hp : ClockVar n (.leaf p)) (hq : ClockVar n (.leaf q)) : matchPred geo env p = matchPred geo env q := by
  cases p with
  | compare o v c =>
    cases q with
    | equality o' v' c' => cases c' <;> simp [predCore] at h
    | compare o' v' c' =>
      simp only [predCore, Pred.compare.injEq, varCore_inj] at h
      obtain ⟨rfl, h, rfl⟩ := h
      simp only [matchPred, matchCompare, h]
    | _ => simp [predCore] at h
  | equality o v c =>
    cases q with
    | equality o' v' c' =>
      cases c <;> cases c' <;> simp [predCore, varCore_inj, strCore_inj, enumCore_inj] at h
      all_goals
        obtain ⟨rfl, h1, h2⟩ := h
        simp only [matchPred, matchEquality, h1, h2]
        try
          cases getVariable env v'.var with
          | error e => rfl
          | ok o => cases o with
            | none => rfl
            | some val => cases val <;> simp only [h2]
    | _ => cases c <;> simp [predCore] at h
  | boolVar v =>
    cases q with
    | equality o' v' c' => cases c' <;> simp [predCore] at h
    | boolVar v' =>
      simp only [predCore, Pred.boolVar.injEq, varCore_inj] at h
      simp only [matchPred, h]
    | _ => simp [predCore] at h
  | boolLit b =>
    cases q with
    | equality o' v' c' => cases c' <;> simp [predCore] at h
    | boolLit b' =>
      simp only [predCore, Pred.boolLit.injEq] at h
      rw [h]
    | _ => simp [predCore] at h
  | set o l r =>
    cases q with
    | equality o' v' c' => cases c' <;> simp [predCore] at h
    | set o' l' r' =>
      cases l <;> cases l' <;> cases r <;> cases r' <;> simp only [predCore, Pred.set.injEq, reduceCtorEq, false_and, and_false] at h
      all_goals
        simp only [SetLeft.int.injEq, SetLeft.string.injEq, SetLeft.var.injEq, SetRight.intList.injEq, SetRight.strList.injEq,
          SetRight.var.injEq, varCore_inj, strCore_inj] at h
        obtain ⟨rfl, h1, h2⟩ := h
        first
          | (simp only [matchPred, matchSet, h1, h2]; done)
          | (simp only [matchPred, matchSet, h1, map_str_core h2]; done)
    | _ => simp [predCore] at h
  | list o v c =>
    cases q with
    | equality o' v' c' => cases c' <;> simp [predCore] at h
    | list o' v' c' =>
      cases c <;> cases c' <;> simp only [predCore, Pred.list.injEq, reduceCtorEq, and_false] at h
      all_goals
        simp only [ListVal.intList.injEq, ListVal.strList.injEq, varCore_inj] at h
        obtain ⟨rfl, h1, h2⟩ := h
        first
          | (simp only [matchPred, matchList, h1, h2]; done)
          | (simp only [matchPred, matchList, h1]
             cases getVariable env v'.var with
             | error e => rfl
             | ok o => cases o with
               | none => rfl
               | some val => cases val <;> simp only [map_str_core h2])
    | _ => simp [predCore] at h
  | freq f =>
    cases q with
    | equality o' v' c' => cases c' <;> simp [predCore] at h
    | freq f' =>
      obtain ⟨a, t, ns, v, l, nw, i⟩ := f
      obtain ⟨a', t', ns', v', l', nw', i'⟩ := f'
      simp only [predCore, Pred.freq.injEq, Frequency.mk.injEq, varCore_inj, strCore_inj] at h
      obtain ⟨h1, rfl, h2, rfl, rfl, _, rfl⟩ := h
      simp only [ClockVar] at hp hq
      simp only [matchPred, matchFreq, h1, hp, hq, withinFrequencyCaps_ns h2]
    | _ => simp [predCore] at h
  | segment f =>
    cases q with
    | equality o' v' c' => cases c' <;> simp [predCore] at h
    | segment f' =>
      obtain ⟨o, b, a, si, se, nw⟩ := f
      obtain ⟨o', b', a', si', se', nw'⟩ := f'
      simp only [predCore, Pred.segment.injEq, SegmentExpr.mk.injEq, varCore_inj] at h
      obtain ⟨rfl, rfl, h1, rfl, rfl, _⟩ := h
      simp only [ClockVar] at hp hq
      simp only [matchPred, matchSegment, h1, hp, hq]
    | _ => simp [predCore] at h
  | geo f =>
    cases q with
    | equality o' v' c' => cases c' <;> simp [predCore] at h
    | geo f' =>
      obtain ⟨b, a, si, se, x, y⟩ := f
      obtain ⟨b', a', si', se', x', y'⟩ := f'
      simp only [predCore, Pred.geo.injEq, Geo.mk.injEq, varCore_inj] at h
      obtain ⟨rfl, rfl, rfl, rfl, h1, h2⟩ := h
      simp only [matchPred, matchGeo, h1, h2]
    | _ => simp [predCore] at h
  | str f =>
    cases q with
    | equality o' v' c' => cases c' <;> simp [predCore] at h
    | str f' =>
      obtain ⟨b, a, si⟩ := f
      obtain ⟨b', a', si'⟩ := f'
      simp only [predCore, Pred.str.injEq, StringExpr.mk.injEq, varCore_inj] at h
      obtain ⟨rfl, h1, rfl⟩ := h
      simp only [matchPred, matchStr, h1]
    | _ => simp [predCore] at h
  | isNull o v =>
    cases q with
    | equality o' v' c' => cases c' <;> simp [predCore] at h
    | isNull o' v' =>
      simp only [predCore, Pred.isNull.injEq, varCore_inj] at h
      obtain ⟨rfl, h1⟩ := h
      simp only [matchPred, matchIsNull, h1]
    | _ => simp [predCore] at h

/-- the same expression evaluates alike -/
theorem same_eval {n : Nat} {a b : Expr} (geo : GeoTest) (env : Env) (h : Same a b) (ha : ClockVar n a) (hb : ClockVar n b) :
    evalExpr geo env a = evalExpr geo env b := by
  induction a generalizing b with
  | leaf p =>
    cases b with
    | leaf q => simp only [Same, core, Expr.leaf.injEq] at h; exact same_matchPred geo env h ha hb
    | _ => simp [Same, core] at h
  | not e ih =>
    cases b with
    | not e' => simp only [Same, core, Expr.not.injEq] at h; simp only [evalExpr, ih h ha hb]
    | _ => simp [Same, core] at h
  | and l r ihl ihr =>
    cases b with
    | and l' r' =>
      simp only [Same, core, Expr.and.injEq] at h; simp only [evalExpr, ihl h.1 ha.1 hb.1, ihr h.2 ha.2 hb.2]
    | _ => simp [Same, core] at h
  | or l r ihl ihr =>
    cases b with
    | or l' r' =>
      simp only [Same, core, Expr.or.injEq] at h; simp only [evalExpr, ihl h.1 ha.1 hb.1, ihr h.2 ha.2 hb.2]
    | _ => simp [Same, core] at h

/-- the memo tables hold only what evaluation gives -/
structure MemoOK (geo : GeoTest) (env : Env) (pm : PredMap) (n : Nat) (s : MState) : Prop where
  passLen : s.memo.pass.length = pm.memoizeCount / 64 + 1
  failLen : s.memo.fail.length = pm.memoizeCount / 64 + 1
  pass : ∀ k a, testBit s.memo.pass k = .ok true → Assigned pm.m a → ClockVar n a.erase → pm.memoizeId a.gid = some k →
    evalExpr geo env a.erase = .ok true
  fail : ∀ k a, testBit s.memo.fail k = .ok true → Assigned pm.m a → ClockVar n a.erase → pm.memoizeId a.gid = some k →
    evalExpr geo env a.erase = .ok false

theorem memoizeId_some {pm : PredMap} {g k : Nat} (h : pm.memoizeId g = some k) : pm.memo[g]? = some (some k) := by
  unfold PredMap.memoizeId at h
  split at h
  · rename_i hm; cases h; exact hm
  · cases h

/-- storing a verdict in the tables -/
theorem memoStore_ok {geo : GeoTest} {env : Env} {pm : PredMap} {n : Nat} {s : MState} (hp : PMOK pm)
    (hs : MemoOK geo env pm n s) {a : AExpr} (ha : Assigned pm.m a) (hc : ClockVar n a.erase) {b : Bool}
    (he : evalExpr geo env a.erase = .ok b) :
    ∃ s', memoStore s (pm.memoizeId a.gid) b = .ok s' ∧ MemoOK geo env pm n s' := by
  cases hm : pm.memoizeId a.gid with
  | none => exact ⟨s, rfl, hs⟩
  | some k =>
    have hg := memoizeId_some hm
    have hlt := hp.memoLt _ _ hg
    have same : ∀ c : AExpr, Assigned pm.m c → ClockVar n c.erase → pm.memoizeId c.gid = some k →
        evalExpr geo env c.erase = .ok b := by
      intro c h1 h2 h3
      have := hp.memoInj _ _ _ hg (memoizeId_some h3)
      rw [← he]
      exact (same_eval geo env ((gid_eq_iff hp ha h1).1 this) hc h2).symm
    cases b with
    | true =>
      obtain ⟨a', e1, e2, e3⟩ := (C38_set_bit s.memo.pass k).1 (by rw [hs.passLen]; omega)
      refine ⟨{ s with memo := { s.memo with pass := a' } }, by simp only [memoStore, if_true, e1], ⟨by rw [← hs.passLen]; exact e2, hs.failLen, ?_, hs.fail⟩⟩
      intro j c h1 h2 h3 h4
      simp only [e3] at h1
      split at h1
      · rename_i hj; subst hj; exact same c h2 h3 h4
      · exact hs.pass j c h1 h2 h3 h4
    | false =>
      obtain ⟨a', e1, e2, e3⟩ := (C38_set_bit s.memo.fail k).1 (by rw [hs.failLen]; omega)
      refine ⟨{ s with memo := { s.memo with fail := a' } }, by simp only [memoStore, Bool.false_eq_true, if_false, e1], ⟨hs.passLen, by rw [← hs.failLen]; exact e2, hs.pass, ?_⟩⟩
      intro j c h1 h2 h3 h4
      simp only [e3] at h1
      split at h1
      · rename_i hj; subst hj; exact same c h2 h3 h4
      · exact hs.fail j c h1 h2 h3 h4

/-- what evaluation of `a` gives is what matching `a` with the memo tables gives -/
def Agrees (geo : GeoTest) (env : Env) (pm : PredMap) (n : Nat) (x : Except Fault Bool) (y : Except Fault (Bool × MState)) : Prop :=
  match x with
  | .error e => y = .error e
  | .ok b => ∃ s, y = .ok (b, s) ∧ MemoOK geo env pm n s

theorem withMemo_agrees {geo : GeoTest} {env : Env} {pm : PredMap} {n : Nat} {s : MState} (hp : PMOK pm)
    (hs : MemoOK geo env pm n s) {a : AExpr} (ha : Assigned pm.m a) (hc : ClockVar n a.erase)
    {body : MState → Except Fault (Bool × MState)}
    (hb : Agrees geo env pm n (evalExpr geo env a.erase) (body s)) :
    Agrees geo env pm n (evalExpr geo env a.erase) (withMemo s (pm.memoizeId a.gid) body) := by
  have go : memoLookup s (pm.memoizeId a.gid) = .ok none →
      Agrees geo env pm n (evalExpr geo env a.erase) (withMemo s (pm.memoizeId a.gid) body) := by
    intro hl
    cases he : evalExpr geo env a.erase with
    | error e =>
      rw [he] at hb
      simp only [Agrees] at hb ⊢
      simp only [withMemo, hl, hb]
    | ok b =>
      rw [he] at hb
      obtain ⟨s1, h1, h2⟩ := hb
      obtain ⟨s2, h3, h4⟩ := memoStore_ok hp h2 ha hc he
      exact ⟨s2, by simp only [withMemo, hl, h1, h3], h4⟩
  cases hm : pm.memoizeId a.gid with
  | none => rw [← hm]; exact go (by rw [hm]; rfl)
  | some k =>
    have hlt := hp.memoLt _ _ (memoizeId_some hm)
    have t1 := testBit_ok s.memo.pass k (by rw [hs.passLen]; omega)
    have t2 := testBit_ok s.memo.fail k (by rw [hs.failLen]; omega)
    cases h1 : testBit s.memo.pass k with
    | error e => rw [h1] at t1; cases t1
    | ok b1 =>
      cases b1 with
      | true =>
        rw [hs.pass k a h1 ha hc hm]
        exact ⟨{ s with memoized := s.memoized + 1 }, by simp only [withMemo, memoLookup, h1], ⟨hs.passLen, hs.failLen, hs.pass, hs.fail⟩⟩
      | false =>
        cases h2 : testBit s.memo.fail k with
        | error e => rw [h2] at t2; cases t2
        | ok b2 =>
          cases b2 with
          | true =>
            rw [hs.fail k a h2 ha hc hm]
            exact ⟨{ s with memoized := s.memoized + 1 }, by simp only [withMemo, memoLookup, h1, h2], ⟨hs.passLen, hs.failLen, hs.pass, hs.fail⟩⟩
          | false =>
            rw [← hm]; exact go (by rw [hm]; simp only [memoLookup, h1, h2])

theorem matchNode_agrees {geo : GeoTest} {env : Env} {pm : PredMap} {n : Nat} (hp : PMOK pm) (a : AExpr) :
    ∀ {s : MState}, MemoOK geo env pm n s → Assigned pm.m a → ClockVar n a.erase →
      Agrees geo env pm n (evalExpr geo env a.erase) (matchNode geo pm.memoizeId env a s) := by
  induction a with
  | leaf g p =>
    intro s hs ha hc
    unfold matchNode
    refine withMemo_agrees hp hs (a := .leaf g p) ha hc ?_
    simp only [AExpr.erase, evalExpr]
    cases matchPred geo env p with
    | error e => rfl
    | ok b => exact ⟨s, rfl, hs⟩
  | not g e ih =>
    intro s hs ha hc
    unfold matchNode
    refine withMemo_agrees hp hs (a := .not g e) ha hc ?_
    have h := ih hs ha.2 hc
    simp only [AExpr.erase, evalExpr]
    cases he : evalExpr geo env e.erase with
    | error x => rw [he] at h; simp only [Agrees] at h ⊢; simp only [h]
    | ok b => rw [he] at h; obtain ⟨s1, h1, h2⟩ := h; exact ⟨s1, by simp only [h1], h2⟩
  | and g l r ihl ihr =>
    intro s hs ha hc
    unfold matchNode
    refine withMemo_agrees hp hs (a := .and g l r) ha hc ?_
    have h := ihl hs ha.2.1 hc.1
    simp only [AExpr.erase, evalExpr]
    cases he : evalExpr geo env l.erase with
    | error x => rw [he] at h; simp only [Agrees] at h ⊢; simp only [h]
    | ok b =>
      rw [he] at h; obtain ⟨s1, h1, h2⟩ := h
      cases b with
      | false => exact ⟨s1, by simp only [h1], h2⟩
      | true => simp only [h1]; exact ihr h2 ha.2.2 hc.2
  | or g l r ihl ihr =>
    intro s hs ha hc
    unfold matchNode
    refine withMemo_agrees hp hs (a := .or g l r) ha hc ?_
    have h := ihl hs ha.2.1 hc.1
    simp only [AExpr.erase, evalExpr]
    cases he : evalExpr geo env l.erase with
    | error x => rw [he] at h; simp only [Agrees] at h ⊢; simp only [h]
    | ok b =>
      rw [he] at h; obtain ⟨s1, h1, h2⟩ := h
      cases b with
      | true => exact ⟨s1, by simp only [h1], h2⟩
      | false => simp only [h1]; exact ihr h2 ha.2.2 hc.2

theorem memoInit_ok (geo : GeoTest) (env : Env) {pm : PredMap} (n : Nat) (hp : PMOK pm) :
    MemoOK geo env pm n { memo := makeMemo pm.memoizeCount, memoized := 0 } := by
  have fresh : ∀ (k : Nat) (a : AExpr), pm.memoizeId a.gid = some k → testBit (makeBits pm.memoizeCount) k = .ok false :=
    fun k a hm => C38_fresh _ _ (Nat.le_of_lt (hp.memoLt _ _ (memoizeId_some hm)))
  refine ⟨by simp [makeMemo, makeBits], by simp [makeMemo, makeBits], ?_, ?_⟩
  · intro k a h _ _ hm
    simp only [makeMemo] at h
    rw [fresh k a hm] at h; cases h
  · intro k a h _ _ hm
    simp only [makeMemo] at h
    rw [fresh k a hm] at h; cases h

/-! ### the clock -/

theorem clockVar_of_res {cfg : Config} {cs : List Constant} {e e' : Expr} (h : ExprRel (ResPred cfg cs) e e')
    (hc : Clocked e) : ClockVar (tryGetIdForAttr cfg "now".toList) e' := by
  induction h with
  | @leaf p p' h =>
    cases h with
    | freq hv hn hs hname hi =>
      simp only [Clocked] at hc
      have := hn.var
      rw [hc] at this
      exact this
    | segment hv hn =>
      simp only [Clocked] at hc
      have := hn.var
      rw [hc] at this
      exact this
    | _ => exact True.intro
  | not _ ih => exact ih hc
  | and _ _ ihl ihr => exact ⟨ihl hc.1, ihr hc.2⟩
  | or _ _ ihl ihr => exact ⟨ihl hc.1, ihr hc.2⟩

theorem clocked_mk {l r : Expr} (hl : Clocked l) (hr : Clocked r) : Clocked (mkAnd l r) ∧ Clocked (mkOr l r) := by
  unfold mkAnd mkOr
  constructor <;> split <;> first | exact ⟨hl, hr⟩ | exact ⟨hr, hl⟩

theorem clocked_parseBuild {e : Expr} (h : Clocked e) : Clocked (parseBuild e) := by
  induction e with
  | leaf p => exact h
  | not e ih => exact ih h
  | and l r ihl ihr => exact (clocked_mk (ihl h.1) (ihr h.2)).1
  | or l r ihl ihr => exact (clocked_mk (ihl h.1) (ihr h.2)).2

theorem Made.clock {cfg : Config} {q : Req} {s : Sub} (h : Made cfg q s) (hc : Clocked q.expr) :
    ClockVar (tryGetIdForAttr cfg "now".toList) s.expr.erase :=
  clockVar_of_res h.res (clocked_parseBuild hc)

end BeTree
