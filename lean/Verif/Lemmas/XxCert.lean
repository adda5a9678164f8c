import Verif.Lemmas.LR
import Verif.Model.ParserTables
/-
Data about the automaton of parser.c (accessing symbols, predecessors, weights, right-hand sides), checked against the tables.
-/
namespace BeTree

/-- the automaton of `xxTables` -/
def xxCert : LRCert where
  stos := [
      1000, 3, 10, 20, 21, 22, 23, 24, 25, 26, 27, 31, 32, 33, 34, 35, 36, 38, 39, 40, 41, 42, 47, 48, 49, 50, 51,
      52, 53, 54, 56, 58, 59, 60, 61, 62, 63, 64, 35, 36, 47, 47, 10, 10, 10, 10, 10, 10, 10, 0, 4, 5, 6, 7, 8, 9,
      15, 16, 17, 28, 29, 30, 18, 19, 6, 7, 8, 9, 4, 5, 13, 14, 11, 33, 3, 39, 40, 39, 40, 40, 41, 39, 39, 39, 40,
      41, 42, 51, 51, 40, 41, 49, 49, 49, 49, 10, 43, 45, 57, 57, 57, 47, 47, 39, 39, 39, 39, 39, 39, 39, 43, 45,
      53, 55, 55, 12, 12, 12, 12, 12, 12, 12, 12, 12, 12, 40, 42, 44, 46, 42, 40, 40, 40, 40, 40, 3, 41, 42, 42,
      42, 11, 12, 11, 12, 12, 12, 11, 12, 11, 12, 12, 11, 11, 11, 40, 42, 40, 40, 40, 40, 41, 12, 11, 11, 11, 11,
      40, 11]
  pre := [
      [], [0, 2, 3, 45, 50, 51, 52, 53, 54, 55, 62, 63], [0, 2, 3, 62, 63], [0, 2, 3, 62, 63], [0, 2, 3, 62, 63],
      [0, 2, 3, 62, 63], [0, 2, 3, 62, 63], [0, 2, 3, 62, 63], [0, 2, 3, 62, 63], [0, 2, 3, 62, 63],
      [0, 2, 3, 62, 63], [0, 2, 3, 62, 63], [0, 2, 3, 62, 63],
      [0, 2, 3, 50, 51, 62, 63, 95, 115, 122, 123, 124, 143],
      [0, 2, 3, 43, 44, 46, 47, 48, 62, 63, 64, 65, 66, 67, 68, 69, 70, 71],
      [0, 2, 3, 43, 44, 45, 50, 51, 52, 53, 54, 55, 62, 63, 95, 116, 117, 118, 119, 120, 141, 144, 145, 147, 149, 161],
      [0, 2, 3, 45, 50, 51, 52, 53, 54, 55, 62, 63, 121, 150], [0], [0, 2, 3, 62, 63], [0, 2, 3, 62, 63],
      [0, 2, 3, 62, 63], [0, 2, 3, 62, 63], [0], [0, 2, 3, 62, 63], [0, 2, 3, 62, 63], [0, 2, 3, 62, 63],
      [0, 2, 3, 62, 63], [0, 2, 3, 62, 63], [0, 2, 3, 62, 63], [0, 2, 3, 62, 63], [0, 2, 3, 62, 63],
      [0, 2, 3, 62, 63], [0, 2, 3, 62, 63], [0, 2, 3, 62, 63], [0, 2, 3, 62, 63], [0, 2, 3, 62, 63],
      [0, 2, 3, 62, 63], [0, 2, 3, 62, 63], [1, 74], [1, 135], [2], [3], [4], [5], [6], [7], [8], [9], [10], [17],
      [18], [18], [18], [18], [18], [18], [18], [18], [18], [18], [18], [18], [22, 40, 102], [22, 40], [24], [24],
      [24], [24], [26], [26], [29], [29], [40], [42],
      [43, 44, 95, 116, 117, 118, 119, 120, 141, 144, 145, 147, 149, 161], [43], [43], [44], [44], [45], [45],
      [46], [47], [48], [50, 51], [50, 51], [50, 51], [50], [51], [52, 53, 54, 55], [52, 53, 54, 55], [52], [53],
      [54], [55], [56, 57, 58, 70, 71], [56, 57, 58], [56, 57, 58], [56], [57], [58], [62], [63], [64], [65], [66],
      [67], [68], [69], [70, 71], [70, 71], [70, 71], [70, 71], [70], [71], [73], [75], [76], [77], [78], [79],
      [80], [81], [82], [83], [95], [95], [95], [95], [115], [116], [117], [118], [119], [120], [121, 150], [121],
      [122], [123], [124], [127], [127], [128], [128], [129], [130], [131], [132], [133], [134], [136], [137],
      [138], [139], [141], [143], [144], [145], [147], [149], [150], [156], [157], [158], [159], [160], [161],
      [166]]
  wt := [
      2, 10, 10, 10, 10, 10, 10, 10, 10, 10, 10, 10, 10, 10, 10, 10, 10, 6, 9, 9, 9, 9, 7, 10, 8, 10, 8, 10, 8, 7,
      10, 10, 8, 9, 10, 10, 10, 10, 10, 10, 7, 7, 10, 10, 10, 10, 10, 10, 10, 10, 10, 10, 10, 10, 10, 10, 10, 10,
      10, 10, 10, 10, 10, 10, 10, 10, 10, 10, 10, 10, 10, 10, 10, 10, 10, 9, 9, 9, 9, 9, 9, 9, 9, 9, 9, 9, 9, 8, 8,
      9, 9, 8, 8, 8, 8, 10, 10, 10, 9, 9, 9, 7, 7, 9, 9, 9, 9, 9, 9, 9, 10, 10, 8, 7, 7, 10, 10, 10, 10, 10, 10,
      10, 10, 10, 10, 9, 9, 8, 8, 9, 9, 9, 9, 9, 9, 10, 9, 9, 9, 9, 10, 10, 10, 10, 10, 10, 10, 10, 10, 10, 10, 10,
      10, 10, 9, 9, 9, 9, 9, 9, 9, 10, 10, 10, 10, 10, 9, 10]
  rhs := [
      [], [38, 0], [47], [34], [35], [3, 35], [36], [3, 36], [33], [10, 44, 11], [40], [44, 12, 40], [10, 46, 11],
      [42], [46, 12, 42], [10, 47, 11], [50], [52], [56], [58], [59], [60], [48], [39, 29], [39, 28], [39, 30],
      [40], [41], [39, 6, 49], [39, 7, 49], [39, 8, 49], [39, 9, 49], [49, 8, 39], [49, 9, 39], [49, 6, 39],
      [49, 7, 39], [40], [41], [42], [39, 4, 51], [39, 5, 51], [51, 4, 39], [51, 5, 39], [39], [40], [42], [53],
      [43], [45], [53], [54, 13, 55], [54, 14, 55], [43], [45], [39, 15, 57], [39, 16, 57], [39, 17, 57],
      [47, 18, 47], [47, 19, 47], [20, 47], [39], [31], [32], [61], [62], [63], [64],
      [21, 10, 33, 12, 42, 12, 40, 12, 40, 11], [22, 10, 40, 12, 40, 11], [22, 10, 39, 12, 40, 12, 40, 11],
      [23, 10, 40, 12, 40, 11], [23, 10, 39, 12, 40, 12, 40, 11], [24, 10, 40, 12, 40, 12, 40, 11],
      [24, 10, 41, 12, 41, 12, 41, 11], [25, 10, 39, 12, 42, 11], [26, 10, 39, 12, 42, 11],
      [27, 10, 39, 12, 42, 11]]
  start := 38

set_option maxRecDepth 100000 in
theorem xxCert_ok : xxCert.OK xxTables where
  states := by decide +kernel
  weights := by decide +kernel
  bottom := by decide +kernel
  zero := by decide +kernel
  bottomPre := by decide +kernel
  final := by decide +kernel

end BeTree
