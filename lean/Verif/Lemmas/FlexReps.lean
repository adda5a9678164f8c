import Verif.Lemmas.Flex
/-
The patterns left in each state of the two automata (computed outside; checked by the kernel in FlexCheck).
-/
namespace BeTree

/-- the patterns of the rules -/
def xxPats : List Pat := [
  .blank,
  .lit [119, 105, 116, 104, 105, 110, 95, 102, 114, 101, 113, 117, 101, 110, 99, 121, 95, 99, 97, 112],
  .lit [115, 101, 103, 109, 101, 110, 116, 95, 119, 105, 116, 104, 105, 110],
  .lit [115, 101, 103, 109, 101, 110, 116, 95, 98, 101, 102, 111, 114, 101],
  .lit [103, 101, 111, 95, 119, 105, 116, 104, 105, 110, 95, 114, 97, 100, 105, 117, 115],
  .lit [99, 111, 110, 116, 97, 105, 110, 115],
  .lit [115, 116, 97, 114, 116, 115, 95, 119, 105, 116, 104],
  .lit [101, 110, 100, 115, 95, 119, 105, 116, 104],
  .lit [45],
  .lit [61],
  .lit [60, 62],
  .lit [62],
  .lit [62, 61],
  .lit [60],
  .lit [60, 61],
  .lit [40],
  .lit [41],
  .lit [44],
  .lit [110, 111, 116, 32, 105, 110],
  .lit [105, 110],
  .lit [111, 110, 101, 32, 111, 102],
  .lit [110, 111, 110, 101, 32, 111, 102],
  .lit [97, 108, 108, 32, 111, 102],
  .lit [38, 38],
  .lit [97, 110, 100],
  .lit [124, 124],
  .lit [111, 114],
  .lit [110, 111, 116],
  .lit [105, 115, 32, 110, 111, 116, 32, 110, 117, 108, 108],
  .lit [105, 115, 32, 110, 117, 108, 108],
  .lit [105, 115, 32, 101, 109, 112, 116, 121],
  .lit [116, 114, 117, 101],
  .lit [102, 97, 108, 115, 101],
  .quote 34,
  .quote 39,
  .name,
  .int,
  .flt,
  .any]

/-- the patterns left in each state -/
def xxReps : List (Option Items) := [
  none,
  some (numbered 0 xxPats),
  none,
  none,
  some [(38, .lit [])],
  some [(0, .lit []), (38, .lit [])],
  some [(0, .lit [])],
  some [(33, .body 34), (38, .lit [])],
  some [(23, .lit [38]), (38, .lit [])],
  some [(34, .body 39), (38, .lit [])],
  some [(15, .lit []), (38, .lit [])],
  some [(16, .lit []), (38, .lit [])],
  some [(17, .lit []), (38, .lit [])],
  some [(8, .lit []), (38, .lit [])],
  some [(36, .digits), (37, .fltInt), (38, .lit [])],
  some [(10, .lit [62]), (13, .lit []), (14, .lit [61]), (38, .lit [])],
  some [(9, .lit []), (38, .lit [])],
  some [(11, .lit []), (12, .lit [61]), (38, .lit [])],
  some [(35, .nameTail), (38, .lit [])],
  some [(22, .lit [108, 108, 32, 111, 102]), (24, .lit [110, 100]), (35, .nameTail), (38, .lit [])],
  some [(5, .lit [111, 110, 116, 97, 105, 110, 115]), (35, .nameTail), (38, .lit [])],
  some [(7, .lit [110, 100, 115, 95, 119, 105, 116, 104]), (35, .nameTail), (38, .lit [])],
  some [(32, .lit [97, 108, 115, 101]), (35, .nameTail), (38, .lit [])],
  some [(4, .lit [101, 111, 95, 119, 105, 116, 104, 105, 110, 95, 114, 97, 100, 105, 117, 115]), (35, .nameTail), (38, .lit [])],
  some [(19, .lit [110]), (28, .lit [115, 32, 110, 111, 116, 32, 110, 117, 108, 108]), (29, .lit [115, 32, 110, 117, 108, 108]), (30, .lit [115, 32, 101, 109, 112, 116, 121]), (35, .nameTail), (38, .lit [])],
  some [(18, .lit [111, 116, 32, 105, 110]), (21, .lit [111, 110, 101, 32, 111, 102]), (27, .lit [111, 116]), (35, .nameTail), (38, .lit [])],
  some [(20, .lit [110, 101, 32, 111, 102]), (26, .lit [114]), (35, .nameTail), (38, .lit [])],
  some [(2, .lit [101, 103, 109, 101, 110, 116, 95, 119, 105, 116, 104, 105, 110]), (3, .lit [101, 103, 109, 101, 110, 116, 95, 98, 101, 102, 111, 114, 101]), (6, .lit [116, 97, 114, 116, 115, 95, 119, 105, 116, 104]), (35, .nameTail), (38, .lit [])],
  some [(31, .lit [114, 117, 101]), (35, .nameTail), (38, .lit [])],
  some [(1, .lit [105, 116, 104, 105, 110, 95, 102, 114, 101, 113, 117, 101, 110, 99, 121, 95, 99, 97, 112]), (35, .nameTail), (38, .lit [])],
  some [(25, .lit [124]), (38, .lit [])],
  some [(33, .body 34)],
  some [(33, .lit [])],
  some [(33, .esc 34)],
  some [(23, .lit [])],
  some [(34, .body 39)],
  some [(34, .lit [])],
  some [(34, .esc 39)],
  some [(37, .fltFrac)],
  some [(36, .digits), (37, .fltInt)],
  some [(14, .lit [])],
  some [(10, .lit [])],
  some [(12, .lit [])],
  some [(35, .nameTail)],
  some [(22, .lit [108, 32, 111, 102]), (35, .nameTail)],
  some [(24, .lit [100]), (35, .nameTail)],
  some [(5, .lit [110, 116, 97, 105, 110, 115]), (35, .nameTail)],
  some [(7, .lit [100, 115, 95, 119, 105, 116, 104]), (35, .nameTail)],
  some [(32, .lit [108, 115, 101]), (35, .nameTail)],
  some [(4, .lit [111, 95, 119, 105, 116, 104, 105, 110, 95, 114, 97, 100, 105, 117, 115]), (35, .nameTail)],
  some [(19, .lit []), (35, .nameTail)],
  some [(28, .lit [32, 110, 111, 116, 32, 110, 117, 108, 108]), (29, .lit [32, 110, 117, 108, 108]), (30, .lit [32, 101, 109, 112, 116, 121]), (35, .nameTail)],
  some [(18, .lit [116, 32, 105, 110]), (21, .lit [110, 101, 32, 111, 102]), (27, .lit [116]), (35, .nameTail)],
  some [(20, .lit [101, 32, 111, 102]), (35, .nameTail)],
  some [(26, .lit []), (35, .nameTail)],
  some [(2, .lit [103, 109, 101, 110, 116, 95, 119, 105, 116, 104, 105, 110]), (3, .lit [103, 109, 101, 110, 116, 95, 98, 101, 102, 111, 114, 101]), (35, .nameTail)],
  some [(6, .lit [97, 114, 116, 115, 95, 119, 105, 116, 104]), (35, .nameTail)],
  some [(31, .lit [117, 101]), (35, .nameTail)],
  some [(1, .lit [116, 104, 105, 110, 95, 102, 114, 101, 113, 117, 101, 110, 99, 121, 95, 99, 97, 112]), (35, .nameTail)],
  some [(25, .lit [])],
  some [(37, .fltFrac)],
  some [(22, .lit [32, 111, 102]), (35, .nameTail)],
  some [(24, .lit []), (35, .nameTail)],
  some [(5, .lit [116, 97, 105, 110, 115]), (35, .nameTail)],
  some [(7, .lit [115, 95, 119, 105, 116, 104]), (35, .nameTail)],
  some [(32, .lit [115, 101]), (35, .nameTail)],
  some [(4, .lit [95, 119, 105, 116, 104, 105, 110, 95, 114, 97, 100, 105, 117, 115]), (35, .nameTail)],
  some [(28, .lit [110, 111, 116, 32, 110, 117, 108, 108]), (29, .lit [110, 117, 108, 108]), (30, .lit [101, 109, 112, 116, 121])],
  some [(21, .lit [101, 32, 111, 102]), (35, .nameTail)],
  some [(18, .lit [32, 105, 110]), (27, .lit []), (35, .nameTail)],
  some [(20, .lit [32, 111, 102]), (35, .nameTail)],
  some [(2, .lit [109, 101, 110, 116, 95, 119, 105, 116, 104, 105, 110]), (3, .lit [109, 101, 110, 116, 95, 98, 101, 102, 111, 114, 101]), (35, .nameTail)],
  some [(6, .lit [114, 116, 115, 95, 119, 105, 116, 104]), (35, .nameTail)],
  some [(31, .lit [101]), (35, .nameTail)],
  some [(1, .lit [104, 105, 110, 95, 102, 114, 101, 113, 117, 101, 110, 99, 121, 95, 99, 97, 112]), (35, .nameTail)],
  some [(22, .lit [111, 102])],
  some [(5, .lit [97, 105, 110, 115]), (35, .nameTail)],
  some [(7, .lit [95, 119, 105, 116, 104]), (35, .nameTail)],
  some [(32, .lit [101]), (35, .nameTail)],
  some [(4, .lit [119, 105, 116, 104, 105, 110, 95, 114, 97, 100, 105, 117, 115]), (35, .nameTail)],
  some [(30, .lit [109, 112, 116, 121])],
  some [(28, .lit [111, 116, 32, 110, 117, 108, 108]), (29, .lit [117, 108, 108])],
  some [(21, .lit [32, 111, 102]), (35, .nameTail)],
  some [(18, .lit [105, 110])],
  some [(20, .lit [111, 102])],
  some [(2, .lit [101, 110, 116, 95, 119, 105, 116, 104, 105, 110]), (3, .lit [101, 110, 116, 95, 98, 101, 102, 111, 114, 101]), (35, .nameTail)],
  some [(6, .lit [116, 115, 95, 119, 105, 116, 104]), (35, .nameTail)],
  some [(31, .lit []), (35, .nameTail)],
  some [(1, .lit [105, 110, 95, 102, 114, 101, 113, 117, 101, 110, 99, 121, 95, 99, 97, 112]), (35, .nameTail)],
  some [(22, .lit [102])],
  some [(5, .lit [105, 110, 115]), (35, .nameTail)],
  some [(7, .lit [119, 105, 116, 104]), (35, .nameTail)],
  some [(32, .lit []), (35, .nameTail)],
  some [(4, .lit [105, 116, 104, 105, 110, 95, 114, 97, 100, 105, 117, 115]), (35, .nameTail)],
  some [(30, .lit [112, 116, 121])],
  some [(28, .lit [116, 32, 110, 117, 108, 108])],
  some [(29, .lit [108, 108])],
  some [(21, .lit [111, 102])],
  some [(18, .lit [110])],
  some [(20, .lit [102])],
  some [(2, .lit [110, 116, 95, 119, 105, 116, 104, 105, 110]), (3, .lit [110, 116, 95, 98, 101, 102, 111, 114, 101]), (35, .nameTail)],
  some [(6, .lit [115, 95, 119, 105, 116, 104]), (35, .nameTail)],
  some [(1, .lit [110, 95, 102, 114, 101, 113, 117, 101, 110, 99, 121, 95, 99, 97, 112]), (35, .nameTail)],
  some [(22, .lit [])],
  some [(5, .lit [110, 115]), (35, .nameTail)],
  some [(7, .lit [105, 116, 104]), (35, .nameTail)],
  some [(4, .lit [116, 104, 105, 110, 95, 114, 97, 100, 105, 117, 115]), (35, .nameTail)],
  some [(30, .lit [116, 121])],
  some [(28, .lit [32, 110, 117, 108, 108])],
  some [(29, .lit [108])],
  some [(21, .lit [102])],
  some [(18, .lit [])],
  some [(20, .lit [])],
  some [(2, .lit [116, 95, 119, 105, 116, 104, 105, 110]), (3, .lit [116, 95, 98, 101, 102, 111, 114, 101]), (35, .nameTail)],
  some [(6, .lit [95, 119, 105, 116, 104]), (35, .nameTail)],
  some [(1, .lit [95, 102, 114, 101, 113, 117, 101, 110, 99, 121, 95, 99, 97, 112]), (35, .nameTail)],
  some [(5, .lit [115]), (35, .nameTail)],
  some [(7, .lit [116, 104]), (35, .nameTail)],
  some [(4, .lit [104, 105, 110, 95, 114, 97, 100, 105, 117, 115]), (35, .nameTail)],
  some [(30, .lit [121])],
  some [(28, .lit [110, 117, 108, 108])],
  some [(29, .lit [])],
  some [(21, .lit [])],
  some [(2, .lit [95, 119, 105, 116, 104, 105, 110]), (3, .lit [95, 98, 101, 102, 111, 114, 101]), (35, .nameTail)],
  some [(6, .lit [119, 105, 116, 104]), (35, .nameTail)],
  some [(1, .lit [102, 114, 101, 113, 117, 101, 110, 99, 121, 95, 99, 97, 112]), (35, .nameTail)],
  some [(5, .lit []), (35, .nameTail)],
  some [(7, .lit [104]), (35, .nameTail)],
  some [(4, .lit [105, 110, 95, 114, 97, 100, 105, 117, 115]), (35, .nameTail)],
  some [(30, .lit [])],
  some [(28, .lit [117, 108, 108])],
  some [(2, .lit [119, 105, 116, 104, 105, 110]), (3, .lit [98, 101, 102, 111, 114, 101]), (35, .nameTail)],
  some [(6, .lit [105, 116, 104]), (35, .nameTail)],
  some [(1, .lit [114, 101, 113, 117, 101, 110, 99, 121, 95, 99, 97, 112]), (35, .nameTail)],
  some [(7, .lit []), (35, .nameTail)],
  some [(4, .lit [110, 95, 114, 97, 100, 105, 117, 115]), (35, .nameTail)],
  some [(28, .lit [108, 108])],
  some [(3, .lit [101, 102, 111, 114, 101]), (35, .nameTail)],
  some [(2, .lit [105, 116, 104, 105, 110]), (35, .nameTail)],
  some [(6, .lit [116, 104]), (35, .nameTail)],
  some [(1, .lit [101, 113, 117, 101, 110, 99, 121, 95, 99, 97, 112]), (35, .nameTail)],
  some [(4, .lit [95, 114, 97, 100, 105, 117, 115]), (35, .nameTail)],
  some [(28, .lit [108])],
  some [(3, .lit [102, 111, 114, 101]), (35, .nameTail)],
  some [(2, .lit [116, 104, 105, 110]), (35, .nameTail)],
  some [(6, .lit [104]), (35, .nameTail)],
  some [(1, .lit [113, 117, 101, 110, 99, 121, 95, 99, 97, 112]), (35, .nameTail)],
  some [(4, .lit [114, 97, 100, 105, 117, 115]), (35, .nameTail)],
  some [(28, .lit [])],
  some [(3, .lit [111, 114, 101]), (35, .nameTail)],
  some [(2, .lit [104, 105, 110]), (35, .nameTail)],
  some [(6, .lit []), (35, .nameTail)],
  some [(1, .lit [117, 101, 110, 99, 121, 95, 99, 97, 112]), (35, .nameTail)],
  some [(4, .lit [97, 100, 105, 117, 115]), (35, .nameTail)],
  some [(3, .lit [114, 101]), (35, .nameTail)],
  some [(2, .lit [105, 110]), (35, .nameTail)],
  some [(1, .lit [101, 110, 99, 121, 95, 99, 97, 112]), (35, .nameTail)],
  some [(4, .lit [100, 105, 117, 115]), (35, .nameTail)],
  some [(3, .lit [101]), (35, .nameTail)],
  some [(2, .lit [110]), (35, .nameTail)],
  some [(1, .lit [110, 99, 121, 95, 99, 97, 112]), (35, .nameTail)],
  some [(4, .lit [105, 117, 115]), (35, .nameTail)],
  some [(3, .lit []), (35, .nameTail)],
  some [(2, .lit []), (35, .nameTail)],
  some [(1, .lit [99, 121, 95, 99, 97, 112]), (35, .nameTail)],
  some [(4, .lit [117, 115]), (35, .nameTail)],
  some [(1, .lit [121, 95, 99, 97, 112]), (35, .nameTail)],
  some [(4, .lit [115]), (35, .nameTail)],
  some [(1, .lit [95, 99, 97, 112]), (35, .nameTail)],
  some [(4, .lit []), (35, .nameTail)],
  some [(1, .lit [99, 97, 112]), (35, .nameTail)],
  some [(1, .lit [97, 112]), (35, .nameTail)],
  some [(1, .lit [112]), (35, .nameTail)],
  some [(1, .lit []), (35, .nameTail)],
  some []]

/-- a byte of each class -/
def xxBytes : List Nat := [0, 1, 9, 10, 32, 34, 38, 39, 40, 41, 44, 45, 46, 48, 60, 61, 62, 65, 92, 95, 97, 98, 99, 100, 101, 102, 103, 104, 105, 108, 109, 110, 111, 112, 113, 114, 115, 116, 117, 119, 121, 124]

/-- the patterns of the rules -/
def zzPats : List Pat := [
  .blank,
  .lit [45],
  .lit [91],
  .lit [93],
  .lit [123],
  .lit [125],
  .lit [44],
  .lit [58],
  .lit [116, 114, 117, 101],
  .lit [102, 97, 108, 115, 101],
  .lit [110, 117, 108, 108],
  .quote 34,
  .quote 39,
  .int,
  .flt,
  .any]

/-- the patterns left in each state -/
def zzReps : List (Option Items) := [
  none,
  some (numbered 0 zzPats),
  none,
  none,
  some [(15, .lit [])],
  some [(0, .lit []), (15, .lit [])],
  some [(0, .lit [])],
  some [(11, .body 34), (15, .lit [])],
  some [(12, .body 39), (15, .lit [])],
  some [(6, .lit []), (15, .lit [])],
  some [(1, .lit []), (15, .lit [])],
  some [(13, .digits), (14, .fltInt), (15, .lit [])],
  some [(7, .lit []), (15, .lit [])],
  some [(2, .lit []), (15, .lit [])],
  some [(3, .lit []), (15, .lit [])],
  some [(9, .lit [97, 108, 115, 101]), (15, .lit [])],
  some [(10, .lit [117, 108, 108]), (15, .lit [])],
  some [(8, .lit [114, 117, 101]), (15, .lit [])],
  some [(4, .lit []), (15, .lit [])],
  some [(5, .lit []), (15, .lit [])],
  some [(11, .body 34)],
  some [(11, .lit [])],
  some [(11, .esc 34)],
  some [(12, .body 39)],
  some [(12, .lit [])],
  some [(12, .esc 39)],
  some [(14, .fltFrac)],
  some [(13, .digits), (14, .fltInt)],
  some [(9, .lit [108, 115, 101])],
  some [(10, .lit [108, 108])],
  some [(8, .lit [117, 101])],
  some [(14, .fltFrac)],
  some [(9, .lit [115, 101])],
  some [(10, .lit [108])],
  some [(8, .lit [101])],
  some [(9, .lit [101])],
  some [(10, .lit [])],
  some [(8, .lit [])],
  some [(9, .lit [])],
  some []]

/-- a byte of each class -/
def zzBytes : List Nat := [0, 1, 9, 10, 34, 39, 44, 45, 46, 48, 58, 91, 92, 93, 97, 101, 102, 108, 110, 114, 115, 116, 117, 123, 125]

end BeTree
