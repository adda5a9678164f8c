import Verif.Lemmas.Config
import Verif.Props.Conserve
/-
C25, C26: interning of strings and of enum integers over whole histories of API calls.
-/
namespace BeTree

theorem step_ext {R : Rounding} {w w' : World} {o : Op} (h : w.step R o = .ok w') : CfgExt w.tree.cfg w'.tree.cfg := by
  cases o with
  | insert q =>
    simp only [World.step] at h
    repeat' split at h
    all_goals first | (cases h; done) | (rename_i hi; cases h; exact insert_ext hi)
  | makeSub q =>
    simp only [World.step] at h
    repeat' split at h
    all_goals first | (cases h; done) | (rename_i hi; cases h; exact makeSub_ext hi)
  | insertSub k =>
    simp only [World.step, Tree.insertSub] at h
    repeat' split at h
    all_goals first
      | (cases h; done)
      | (cases h; exact CfgExt.refl _)
      | (rename_i hi; split at hi; · cases hi
         · cases hi; cases h; exact CfgExt.refl _)
  | changeBoundaries e =>
    simp only [World.step] at h
    repeat' split at h
    all_goals first | (cases h; done) | (rename_i hi; cases h; exact changeBoundaries_api_ext hi)

theorem run_ext {R : Rounding} {w w' : World} {ops : List Op} (h : w.run R ops = .ok w') :
    CfgExt w.tree.cfg w'.tree.cfg := by
  induction ops generalizing w with
  | nil => cases h; exact CfgExt.refl _
  | cons o os ih =>
    simp only [World.run] at h
    split at h
    · cases h
    · rename_i h1
      exact (step_ext h1).trans (ih h)

theorem makeTree_maps (cap min : Nat) (decls : List (Str × Decl × Bool)) :
    (makeTree cap min decls).cfg.stringMaps = [] ∧ (makeTree cap min decls).cfg.intMaps = [] := by
  suffices H : ∀ cfg : Config, cfg.stringMaps = [] → cfg.intMaps = [] →
      (decls.foldl (fun cfg d => declare cfg d.1 d.2.1 d.2.2) cfg).stringMaps = [] ∧
      (decls.foldl (fun cfg d => declare cfg d.1 d.2.1 d.2.2) cfg).intMaps = [] from H _ rfl rfl
  induction decls with
  | nil => intro cfg h1 h2; exact ⟨h1, h2⟩
  | cons d ds ih => intro cfg h1 h2; exact ih _ h1 h2

theorem makeTree_tablesOK (cap min : Nat) (decls : List (Str × Decl × Bool)) : TablesOK (makeTree cap min decls).cfg := by
  obtain ⟨h1, h2⟩ := makeTree_maps cap min decls
  refine ⟨by rw [h1]; exact List.nodup_nil, by rw [h2]; exact List.nodup_nil, fun v => ?_, fun v => ?_⟩
  · simp [strTable, findStrMap, h1]
  · simp [intTable, findIntMap, h2]

theorem run_tablesOK {R : Rounding} {cap min : Nat} {decls : List (Str × Decl × Bool)} {ops : List Op} {w : World}
    (h : (World.init (makeTree cap min decls)).run R ops = .ok w) : TablesOK w.tree.cfg :=
  (run_ext h).ok (makeTree_tablesOK cap min decls)

/-- what `try_get_id_for_string` answers, in terms of the table -/
theorem tryGetIdForString_ok {cfg : Config} {var : Nat} {s : Str} {i : Nat} (h : tryGetIdForString cfg var s = .ok i) :
    (strTable cfg var)[i]? = some s ∨ (i = invalidId ∧ s ∉ strTable cfg var) := by
  unfold tryGetIdForString at h
  unfold strTable
  split at h
  · rename_i hm
    cases h; rw [hm]; exact Or.inr ⟨rfl, by simp⟩
  · rename_i hm
    rw [hm]
    split at h
    · cases h
    · rename_i hg
      cases h
      unfold strMapGet at hg
      split at hg
      · cases hg
      · exact Or.inr ⟨rfl, idxOf?_none_mem (by simpa using hg)⟩
    · rename_i hg
      cases h
      unfold strMapGet at hg
      split at hg
      · cases hg
      · exact Or.inl (idxOf?_some_get (by simpa using hg))

theorem tryGetIdForString_of_get {cfg : Config} {var : Nat} {s : Str} {i : Nat} (hn : (strTable cfg var).Nodup)
    (h : (strTable cfg var)[i]? = some s) : tryGetIdForString cfg var s = .ok i := by
  unfold strTable at hn h
  unfold tryGetIdForString
  split at h
  · simp at h
  · rename_i m hm
    rw [hm] at hn
    simp only at hn
    have h1 := idxOf?_of_get hn h
    have h2 : strMapGet cfg.stringMaps m s = .ok (some i) := by
      unfold strMapGet
      rw [if_neg (by rintro ⟨h0, _⟩; rw [h0] at h; simp at h), h1]
    rw [hm]
    simp only [h2]

theorem tryGetIdForIenum_ok {cfg : Config} {var : Nat} {s : Int} {i : Nat} (h : tryGetIdForIenum cfg var s = i) :
    (intTable cfg var)[i]? = some s ∨ (i = invalidId ∧ s ∉ intTable cfg var) := by
  unfold tryGetIdForIenum at h
  unfold intTable
  split at h
  · rename_i hm
    cases h; rw [hm]; exact Or.inr ⟨rfl, by simp⟩
  · rename_i hm
    rw [hm]
    split at h
    · rename_i hg
      cases h
      exact Or.inr ⟨rfl, idxOf?_none_mem (by simpa using hg)⟩
    · rename_i hg
      cases h
      exact Or.inl (idxOf?_some_get (by simpa using hg))

theorem tryGetIdForIenum_of_get {cfg : Config} {var : Nat} {s : Int} {i : Nat} (hn : (intTable cfg var).Nodup)
    (h : (intTable cfg var)[i]? = some s) : tryGetIdForIenum cfg var s = i := by
  unfold intTable at hn h
  unfold tryGetIdForIenum
  split at h
  · simp at h
  · rename_i m hm
    rw [hm] at hn
    simp only at hn
    rw [hm]
    simp only [idxOf?_of_get hn h]

theorem prefix_get {α : Type} {a b : List α} (h : a <+: b) {i : Nat} {x : α} (hx : a[i]? = some x) : b[i]? = some x := by
  obtain ⟨c, rfl⟩ := h
  rw [List.getElem?_append_left (List.getElem?_eq_some_iff.1 hx).1]; exact hx

/-- The id under which a string value of an attribute is known (`none`: the text was never seen); what an event value
gets (config.c:304-318). -/
def Tree.stringId (t : Tree) (var : Nat) (s : Str) : Option Nat :=
  match tryGetIdForString t.cfg var s with
  | .ok i => if i = invalidId then none else some i
  | .error _ => none

/-- The id under which an integer value of an enum attribute is known. -/
def Tree.enumId (t : Tree) (var : Nat) (i : Int) : Option Nat :=
  if tryGetIdForIenum t.cfg var i = invalidId then none else some (tryGetIdForIenum t.cfg var i)

theorem stringId_iff {t : Tree} {var : Nat} {s : Str} {i : Nat} (hok : TablesOK t.cfg) :
    t.stringId var s = some i ↔ (strTable t.cfg var)[i]? = some s ∧ i ≠ invalidId := by
  unfold Tree.stringId
  constructor
  · intro h
    split at h
    · split at h
      · cases h
      · rename_i h1 h2
        cases h
        rcases tryGetIdForString_ok h1 with h3 | h3
        · exact ⟨h3, h2⟩
        · exact absurd h3.1 h2
    · cases h
  · rintro ⟨h1, h2⟩
    rw [tryGetIdForString_of_get (hok.strNodup var) h1]
    simp only [if_neg h2]

theorem enumId_iff {t : Tree} {var : Nat} {s : Int} {i : Nat} (hok : TablesOK t.cfg) :
    t.enumId var s = some i ↔ (intTable t.cfg var)[i]? = some s ∧ i ≠ invalidId := by
  unfold Tree.enumId
  constructor
  · intro h
    split at h
    · cases h
    · rename_i h2
      cases h
      rcases tryGetIdForIenum_ok (rfl : tryGetIdForIenum t.cfg var s = _) with h3 | h3
      · exact ⟨h3, h2⟩
      · exact absurd h3.1 h2
  · rintro ⟨h1, h2⟩
    rw [tryGetIdForIenum_of_get (hok.intNodup var) h1]
    simp only [if_neg h2]

/-- **C25** (injectivity): after any history of calls, two texts known under the same id for an attribute are the same
text. -/
theorem C25_string_ids_injective (R : Rounding) (cap min : Nat) (decls : List (Str × Decl × Bool)) (ops : List Op) (w : World)
    (h : (World.init (makeTree cap min decls)).run R ops = .ok w) (var : Nat) (s₁ s₂ : Str) (i : Nat)
    (h₁ : w.tree.stringId var s₁ = some i) (h₂ : w.tree.stringId var s₂ = some i) : s₁ = s₂ := by
  have hok := run_tablesOK h
  have e1 := ((stringId_iff hok).1 h₁).1
  have e2 := ((stringId_iff hok).1 h₂).1
  rw [e1] at e2
  exact Option.some.inj e2

/-- **C25** (stability): an id once given to a text never changes, whatever calls follow. -/
theorem C25_string_ids_stable (R : Rounding) (cap min : Nat) (decls : List (Str × Decl × Bool)) (ops more : List Op)
    (w w' : World) (h : (World.init (makeTree cap min decls)).run R ops = .ok w) (h' : w.run R more = .ok w')
    (var : Nat) (s : Str) (i : Nat) (hi : w.tree.stringId var s = some i) : w'.tree.stringId var s = some i := by
  have hok := run_tablesOK h
  have e1 := (stringId_iff hok).1 hi
  exact (stringId_iff ((run_ext h').ok hok)).2 ⟨prefix_get ((run_ext h').strs var) e1.1, e1.2⟩

/-- **C25** (consecutive): the ids in use for an attribute are exactly the numbers below some count.  (`2^64 - 1` is the
code's "no id", so the statement speaks about ids below it.) -/
theorem C25_string_ids_consecutive (R : Rounding) (cap min : Nat) (decls : List (Str × Decl × Bool)) (ops : List Op)
    (w : World) (h : (World.init (makeTree cap min decls)).run R ops = .ok w) (var : Nat) :
    ∃ count, ∀ i, i < invalidId → ((∃ s, w.tree.stringId var s = some i) ↔ i < count) := by
  have hok := run_tablesOK h
  refine ⟨(strTable w.tree.cfg var).length, fun i hi => ⟨?_, ?_⟩⟩
  · rintro ⟨s, hs⟩
    exact (List.getElem?_eq_some_iff.1 ((stringId_iff hok).1 hs).1).1
  · intro hlt
    exact ⟨(strTable w.tree.cfg var)[i], (stringId_iff hok).2 ⟨List.getElem?_eq_getElem hlt, Nat.ne_of_lt hi⟩⟩

/-- **C26** (injectivity): after any history of calls, two integers known under the same enum id for an attribute are
equal. -/
theorem C26_enum_ids_injective (R : Rounding) (cap min : Nat) (decls : List (Str × Decl × Bool)) (ops : List Op) (w : World)
    (h : (World.init (makeTree cap min decls)).run R ops = .ok w) (var : Nat) (x₁ x₂ : Int) (i : Nat)
    (h₁ : w.tree.enumId var x₁ = some i) (h₂ : w.tree.enumId var x₂ = some i) : x₁ = x₂ := by
  have hok := run_tablesOK h
  have e1 := ((enumId_iff hok).1 h₁).1
  have e2 := ((enumId_iff hok).1 h₂).1
  rw [e1] at e2
  exact Option.some.inj e2

/-- **C26** (stability): an enum id once given never changes, whatever calls follow. -/
theorem C26_enum_ids_stable (R : Rounding) (cap min : Nat) (decls : List (Str × Decl × Bool)) (ops more : List Op)
    (w w' : World) (h : (World.init (makeTree cap min decls)).run R ops = .ok w) (h' : w.run R more = .ok w')
    (var : Nat) (x : Int) (i : Nat) (hi : w.tree.enumId var x = some i) : w'.tree.enumId var x = some i := by
  have hok := run_tablesOK h
  have e1 := (enumId_iff hok).1 hi
  exact (enumId_iff ((run_ext h').ok hok)).2 ⟨prefix_get ((run_ext h').ints var) e1.1, e1.2⟩

/-- **C26** (consecutive): as for strings. -/
theorem C26_enum_ids_consecutive (R : Rounding) (cap min : Nat) (decls : List (Str × Decl × Bool)) (ops : List Op)
    (w : World) (h : (World.init (makeTree cap min decls)).run R ops = .ok w) (var : Nat) :
    ∃ count, ∀ i, i < invalidId → ((∃ x, w.tree.enumId var x = some i) ↔ i < count) := by
  have hok := run_tablesOK h
  refine ⟨(intTable w.tree.cfg var).length, fun i hi => ⟨?_, ?_⟩⟩
  · rintro ⟨s, hs⟩
    exact (List.getElem?_eq_some_iff.1 ((enumId_iff hok).1 hs).1).1
  · intro hlt
    exact ⟨(intTable w.tree.cfg var)[i], (enumId_iff hok).2 ⟨List.getElem?_eq_getElem hlt, Nat.ne_of_lt hi⟩⟩

/-- concrete history: two texts and two enum integers, by both ways of inserting; ids are as the theorems say -/
def internDecls : List (Str × Decl × Bool) := [("s".toList, .string 4, true), ("e".toList, .intEnum 10, true)]
def exS (s : String) : Expr := .leaf (.equality .eq ⟨"s".toList, 0⟩ (.string ⟨s.toList, 0, 0⟩))
def exE (k : Int) : Expr := .leaf (.equality .eq ⟨"e".toList, 0⟩ (.int k))
def internOps : List Op := [.insert ⟨1, [], .and (exS "x") (exE 70)⟩, .makeSub ⟨2, [], .or (exS "y") (exE (-3))⟩, .insertSub 0]

example : (match (World.init (makeTree 2 0 internDecls)).run exactRounding internOps with
    | .error _ => none
    | .ok w => some [w.tree.stringId 0 "x".toList, w.tree.stringId 0 "y".toList, w.tree.stringId 0 "z".toList,
        w.tree.enumId 1 70, w.tree.enumId 1 (-3), w.tree.enumId 1 0]) =
    some [some 0, some 1, none, some 0, some 1, none] := by decide +kernel

end BeTree
