import Verif.Lemmas.LR
import Verif.Model.ParserTables
/-
Data about the automaton of event_parser.c, checked against the tables.
-/
namespace BeTree

/-- the automaton of `zzTables` -/
def zzCert : LRCert where
  stos := [
      1000, 3, 17, 4, 15, 18, 19, 0, 8, 4, 7, 5, 9, 10, 11, 12, 13, 14, 15, 20, 21, 22, 23, 24, 25, 26, 28, 30, 33,
      19, 5, 6, 9, 22, 24, 27, 29, 31, 32, 34, 35, 13, 14, 5, 15, 22, 6, 7, 6, 7, 6, 7, 6, 7, 15, 7, 7, 22, 24, 5,
      32, 5, 35, 7, 22, 22, 22, 7, 6, 7, 24, 24, 7, 6, 22, 7, 7, 22, 22, 7, 6, 22, 6]
  pre := [
      [], [0], [0], [1], [1, 10], [1], [1], [2], [4], [5], [5], [8], [8], [8], [8], [8],
      [8, 11, 30, 47, 55, 56, 59, 63, 72, 75, 76, 79], [8], [8, 11, 49, 67, 69], [8], [8], [8], [8], [8], [8], [8],
      [8], [8], [8], [10], [11], [11], [11, 30, 47, 55, 56, 59, 63, 72, 75, 76, 79], [11], [11], [11], [11], [11],
      [11], [11], [11], [12, 32], [12], [30, 61], [30, 61], [30, 59], [35], [35], [36], [36], [37], [37], [39],
      [39], [43], [44], [45], [47], [49], [51], [51], [53], [53], [54], [55], [56], [63], [64], [65], [66], [67],
      [69], [70], [71], [72], [73], [74], [75], [76], [77], [78], [79], [81]]
  wt := [
      2, 10, 10, 10, 10, 9, 10, 10, 10, 10, 10, 10, 10, 10, 10, 10, 10, 10, 10, 8, 9, 9, 9, 9, 10, 10, 10, 10, 10,
      10, 10, 10, 10, 9, 9, 8, 8, 9, 10, 9, 10, 10, 10, 10, 10, 9, 10, 10, 10, 10, 10, 10, 10, 10, 10, 10, 10, 9,
      9, 10, 10, 10, 10, 10, 9, 9, 9, 10, 10, 10, 9, 9, 10, 10, 9, 10, 10, 9, 9, 10, 10, 9, 10]
  rhs := [
      [], [17, 0], [3, 4], [3, 18, 4], [19], [18, 7, 19], [15, 8, 20], [15, 8, 10], [21], [22], [23], [24], [25],
      [26], [28], [30], [33], [11], [12], [13], [9, 13], [14], [9, 14], [15], [5, 6], [5, 27, 6], [22],
      [27, 7, 22], [5, 29, 6], [24], [29, 7, 24], [5, 31, 6], [32], [31, 7, 32], [5, 22, 7, 22, 6], [5, 34, 6],
      [35], [34, 7, 35], [5, 15, 7, 22, 7, 24, 7, 22, 7, 22, 6], [5, 5, 15, 7, 22, 7, 24, 6, 7, 22, 7, 22, 6]]
  start := 17

set_option maxRecDepth 100000 in
theorem zzCert_ok : zzCert.OK zzTables where
  states := by decide +kernel
  weights := by decide +kernel
  bottom := by decide +kernel
  zero := by decide +kernel
  bottomPre := by decide +kernel
  final := by decide +kernel

end BeTree
