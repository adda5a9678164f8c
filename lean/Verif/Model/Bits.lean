import Verif.Model.Types
/-
memoize.c: bit sets over arrays of `uint64_t`.
-/
namespace BeTree

/-- `uint64_t A[]` (memoize.c:5-18). -/
abbrev Bits := List (BitVec 64)

/-- `bcalloc(count * sizeof(uint64_t))` with `count = n / 64 + 1` (tree.c:1699-1707 make_memoize, 1715-1717
make_undefined, 1572-1574 fill_short_circuit's arrays). -/
def makeBits (n : Nat) : Bits := List.replicate (n / 64 + 1) 0#64

/-- `set_bit` (memoize.c:5-8). -/
def setBit (a : Bits) (k : Nat) : Except Fault Bits :=
  match a[k / 64]? with
  | none => .error .ub
  | some w => .ok (a.set (k / 64) (w ||| (1#64 <<< (k % 64))))

/-- `clear_bit` (memoize.c:10-13). -/
def clearBit (a : Bits) (k : Nat) : Except Fault Bits :=
  match a[k / 64]? with
  | none => .error .ub
  | some w => .ok (a.set (k / 64) (w &&& ~~~(1#64 <<< (k % 64))))

/-- `test_bit` (memoize.c:15-18). -/
def testBit (a : Bits) (k : Nat) : Except Fault Bool :=
  match a[k / 64]? with
  | none => .error .ub
  | some w => .ok (w &&& (1#64 <<< (k % 64)) != 0#64)

end BeTree
