import Verif.Props.Memory
/-
C58: where memory is lost, and where it is freed twice.
-/
namespace BeTree

/-- What the parser has read when it gives up is lost: here the name. -/
theorem C58_parse_error_leaks : blocksLeft [.call (.insert (memReq 1 "i = ("))] = .inl 1 := by decide +kernel

/-- An expression inserted in one step without the constant for its frequency cap is refused and lost; `betree_make_sub` frees it. -/
theorem C58_missing_constant_leaks :
    blocksLeft [.call (.insert (memReq 1 "within_frequency_cap(\"flight\", \"ns\", 5, 0)"))] = .inl 4 ∧
    blocksLeft [.call (.makeSub (memReq 1 "within_frequency_cap(\"flight\", \"ns\", 5, 0)"))] = .inl 0 := by
  constructor <;> decide +kernel

/-- A subscription that is built and not inserted is never freed. -/
theorem C58_not_inserted_leaks : blocksLeft [.call (.makeSub (memReq 1 "i = 1"))] = .inl 6 := by decide +kernel

/-- A subscription inserted twice is freed twice. -/
theorem C58_inserted_twice : blocksLeft [.call (.makeSub (memReq 1 "i = 1")), .call (.insertSub 0), .call (.insertSub 0)] = .inr .ub := by
  decide +kernel

/-- A subscription inserted, freed by `empty_tree` and inserted again is read after it was freed. -/
theorem C58_inserted_after_empty :
    blocksLeft [.call (.makeSub (memReq 1 "i = 1")), .call (.insertSub 0), .empty, .call (.insertSub 0)] = .inr .ub := by
  decide +kernel

end BeTree
