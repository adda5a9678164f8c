import Verif.Spec.EventText
import Verif.Spec.Syntax
import Verif.Model.TextApi
/-
What the texts of a call say.
-/
namespace BeTree

/-- the text, up to the first character that begins no token, is an expression that says `e` -/
def Says (text : Str) (e : Expr) : Prop := ∃ ts r d, Scan text ts r ∧ Reads .or d ts e

/-- the text, up to the first character that begins no token, is an event that says `ev` -/
def SaysEvent (text : Str) (ev : List EventVar) : Prop := ∃ ts r, EvScan text ts r ∧ EvEvent ts ev

/-- the request says the expression of the other -/
structure ReqSays (q : TextReq) (q' : Req) : Prop where
  id : q.id = q'.id
  consts : q.consts = q'.consts
  expr : Says q.text q'.expr

/-- the call says the expression of the other -/
inductive OpSays : TextOp → Op → Prop where
  | insert {q q'} : ReqSays q q' → OpSays (.insert q) (.insert q')
  | makeSub {q q'} : ReqSays q q' → OpSays (.makeSub q) (.makeSub q')
  | insertSub (k) : OpSays (.insertSub k) (.insertSub k)
  | changeBoundaries {text e} : Says text e → OpSays (.changeBoundaries text) (.changeBoundaries e)

end BeTree
