import Verif.Model.LR
/-
The tables bison generated from parser.y and event_parser.y, as they stand in parser.c and event_parser.c.
-/
namespace BeTree

/-- the tables of `xxparse` (parser.c:492-767); no C code other than these constants -/
def xxTables : LRTables where
  -- yypact (parser.c:610-629)
  pact := [
      15, -8, 15, 15, -5, 7, 21, 33, 47, 76, 93, -44, -44, -44, -44, -44, -44, 105, 134, 65, 63, 41, 53, -44, 87,
      -44, 77, -44, -44, 86, -44, -44, -44, -44, -44, -44, -44, -44, -44, -44, 73, -44, 0, 10, 10, 26, 83, 83, 83,
      -44, 23, 23, 26, 26, 26, 26, 101, 101, 101, -44, -44, -44, 15, 15, 83, 83, 83, 83, 83, 83, -4, -4, -44, 85,
      72, 144, 145, 146, 147, 148, 149, 153, 154, 155, -44, -44, -44, -44, -44, -44, -44, -44, -44, -44, -44, 50,
      -44, -44, -44, -44, -44, -44, 128, -44, -44, -44, -44, -44, -44, -44, -44, -44, -44, -44, -44, 135, 31, 31,
      31, 31, 31, 29, 135, 135, 135, -44, -44, 104, 113, 157, 158, 160, 161, 163, 164, 136, 165, 167, 168, 169,
      -44, 31, -44, 135, 31, 31, -44, 31, -44, 31, 29, -44, -44, -44, -44, -44, 170, 172, 173, 174, 175, 31, -44,
      -44, -44, -44, 176, -44]
  -- yydefact (parser.c:634-653)
  defact := [
      0, 0, 0, 0, 0, 0, 0, 0, 0, 0, 0, 61, 62, 8, 3, 4, 6, 0, 60, 26, 27, 38, 2, 22, 0, 16, 0, 17, 46, 0, 18, 19,
      20, 21, 63, 64, 65, 66, 5, 7, 0, 59, 0, 0, 0, 0, 0, 0, 0, 1, 0, 0, 0, 0, 0, 0, 0, 0, 0, 24, 23, 25, 0, 0, 0,
      0, 0, 0, 0, 0, 0, 0, 15, 0, 0, 0, 0, 0, 0, 0, 0, 0, 0, 0, 36, 37, 38, 39, 40, 26, 27, 28, 29, 30, 31, 0, 52,
      53, 54, 55, 56, 57, 58, 34, 35, 32, 33, 41, 42, 43, 47, 48, 49, 50, 51, 0, 0, 0, 0, 0, 0, 0, 0, 0, 0, 10, 13,
      0, 0, 0, 0, 0, 0, 0, 0, 0, 0, 0, 0, 0, 9, 0, 12, 0, 0, 0, 68, 0, 70, 0, 0, 74, 75, 76, 11, 14, 0, 0, 0, 0, 0,
      0, 69, 71, 72, 73, 0, 67]
  -- yypgoto (parser.c:656-661)
  pgoto := [
      -44, -44, 66, -43, -31, -35, 56, -44, 58, -44, 1, -44, 68, -44, 94, -44, 82, -44, 110, -44, 97, -44, -44,
      -44, -44, -44, -44, -44]
  -- yydefgoto (parser.c:664-669)
  defgoto := [
      -1, 17, 18, 19, 20, 21, 96, 127, 97, 128, 22, 23, 24, 25, 26, 27, 28, 29, 113, 30, 98, 31, 32, 33, 34, 35,
      36, 37]
  -- yytable (parser.c:674-695)
  table := [
      76, 78, 79, 40, 41, 42, 95, 84, 84, 89, 89, 89, 89, 74, 80, 86, 86, 43, 1, 85, 85, 90, 90, 90, 90, 2, 1, 38,
      39, 1, 14, 44, 135, 73, 74, 3, 4, 5, 6, 7, 8, 9, 10, 45, 14, 15, 11, 12, 13, 14, 15, 16, 125, 74, -45, -45,
      13, 46, 15, 16, 126, 15, 16, 101, 102, 16, 15, -37, -37, -36, -36, 62, 63, 130, 131, 132, 133, 134, -44, -44,
      129, 68, 69, 13, 72, 15, 47, 137, 138, 139, 136, 62, 63, 64, 65, 66, 67, 115, 154, 70, 71, 156, 157, 48, 158,
      49, 159, 38, 155, 75, 77, 95, 81, 82, 83, 140, 141, 14, 166, 160, 91, 92, 93, 94, 142, 143, 110, 110, 111,
      111, 103, 104, 105, 106, 107, 108, 109, 109, 50, 51, 52, 53, 54, 55, 87, 88, 62, -43, -43, 56, 57, 58, 112,
      112, 99, 100, 116, 117, 118, 119, 120, 121, 59, 60, 61, 122, 123, 124, 13, 144, 145, 146, 39, 147, 148, 0,
      149, 150, 151, 152, 153, 114, 161, 162, 163, 164, 165, 167]
  -- yycheck (parser.c:697-718)
  check := [
      43, 44, 45, 2, 3, 10, 10, 50, 51, 52, 53, 54, 55, 3, 45, 50, 51, 10, 3, 50, 51, 52, 53, 54, 55, 10, 3, 35,
      36, 3, 34, 10, 3, 33, 3, 20, 21, 22, 23, 24, 25, 26, 27, 10, 34, 35, 31, 32, 33, 34, 35, 36, 95, 3, 13, 14,
      33, 10, 35, 36, 95, 35, 36, 62, 63, 36, 35, 4, 5, 4, 5, 18, 19, 116, 117, 118, 119, 120, 13, 14, 115, 4, 5,
      33, 11, 35, 10, 122, 123, 124, 121, 18, 19, 6, 7, 8, 9, 12, 141, 13, 14, 144, 145, 10, 147, 0, 149, 35, 143,
      43, 44, 10, 46, 47, 48, 11, 12, 34, 161, 150, 52, 53, 54, 55, 11, 12, 70, 71, 70, 71, 64, 65, 66, 67, 68, 69,
      70, 71, 4, 5, 6, 7, 8, 9, 50, 51, 18, 13, 14, 15, 16, 17, 70, 71, 57, 58, 12, 12, 12, 12, 12, 12, 28, 29, 30,
      12, 12, 12, 33, 12, 12, 11, 36, 12, 11, -1, 12, 12, 11, 11, 11, 71, 12, 11, 11, 11, 11, 11]
  -- yyr1 (parser.c:744-754)
  r1 := [
      0, 37, 38, 39, 40, 40, 41, 41, 42, 43, 44, 44, 45, 46, 46, 47, 47, 47, 47, 47, 47, 47, 47, 48, 48, 48, 49,
      49, 50, 50, 50, 50, 50, 50, 50, 50, 51, 51, 51, 52, 52, 52, 52, 53, 54, 54, 54, 55, 55, 55, 56, 56, 57, 57,
      58, 58, 58, 59, 59, 59, 59, 59, 59, 60, 60, 60, 60, 61, 62, 62, 62, 62, 63, 63, 64, 64, 64]
  -- yyr2 (parser.c:757-767)
  r2 := [
      0, 2, 1, 1, 1, 2, 1, 2, 1, 3, 1, 3, 3, 1, 3, 3, 1, 1, 1, 1, 1, 1, 1, 2, 2, 2, 1, 1, 3, 3, 3, 3, 3, 3, 3, 3,
      1, 1, 1, 3, 3, 3, 3, 1, 1, 1, 1, 1, 1, 1, 3, 3, 1, 1, 3, 3, 3, 3, 3, 2, 1, 1, 1, 1, 1, 1, 1, 10, 6, 8, 6, 8,
      8, 8, 6, 6, 6]
  ninf := -44
  ntokens := 37
  last := 187
  final := 49
  depth := 10000

/-- the tables of `zzparse` (event_parser.c:511-719) -/
def zzTables : LRTables where
  -- yypact (event_parser.c:618-629)
  pact := [
      8, -3, 29, -10, 36, 3, -10, -10, 4, -10, 23, 15, 12, -10, -10, -10, -10, -10, -10, -10, -10, -10, -10, -10,
      -10, -10, -10, -10, -10, -10, 18, -10, 32, -10, -10, -1, 28, 30, -10, 35, -10, -10, -10, 31, 42, 43, -10, -5,
      -10, 37, -10, 38, -10, 46, 47, -5, -5, -10, -10, -5, -10, 17, -10, -5, 49, 51, 52, 37, -10, 37, 54, 56, -5,
      58, 59, -5, -5, 62, 57, -5, -10, 64, -10]
  -- yydefact (event_parser.c:634-645)
  defact := [
      0, 0, 0, 2, 0, 0, 4, 1, 0, 3, 0, 0, 0, 7, 17, 18, 19, 21, 23, 6, 8, 9, 10, 11, 12, 13, 14, 15, 16, 5, 0, 24,
      0, 26, 29, 0, 0, 0, 32, 0, 36, 20, 22, 0, 0, 0, 25, 0, 28, 0, 31, 0, 35, 0, 0, 0, 0, 27, 30, 0, 33, 0, 37, 0,
      0, 0, 0, 0, 34, 0, 0, 0, 0, 0, 0, 0, 0, 0, 0, 0, 38, 0, 39]
  -- yypgoto (event_parser.c:648-652)
  pgoto := [
      -10, -10, -10, 63, -10, -10, -8, -10, -9, -10, -10, -10, -10, -10, -10, -10, 2, -10, -10, 19]
  -- yydefgoto (event_parser.c:655-659)
  defgoto := [
      -1, 2, 5, 6, 19, 20, 45, 22, 23, 24, 25, 35, 26, 36, 27, 37, 38, 28, 39, 40]
  -- yytable (event_parser.c:664-674)
  table := [
      21, 3, 34, 33, 32, 46, 47, 9, 16, 11, 10, 1, 4, 12, 13, 14, 15, 16, 17, 18, 30, 31, 43, 43, 32, 41, 42, 32,
      16, 7, 18, 16, 44, 44, 48, 49, 50, 51, 4, 57, 58, 52, 53, 59, 8, 41, 54, 64, 65, 55, 56, 61, 18, 60, 63, 66,
      67, 68, 70, 69, 71, 72, 73, 80, 74, 75, 76, 77, 78, 79, 82, 81, 62, 29]
  -- yycheck (event_parser.c:676-686)
  check := [
      8, 4, 11, 11, 9, 6, 7, 4, 13, 5, 7, 3, 15, 9, 10, 11, 12, 13, 14, 15, 5, 6, 5, 5, 9, 13, 14, 9, 13, 0, 15,
      13, 15, 15, 6, 7, 6, 7, 15, 47, 49, 6, 7, 5, 8, 13, 15, 55, 56, 7, 7, 5, 15, 51, 7, 63, 7, 6, 67, 7, 69, 7,
      6, 6, 72, 7, 7, 75, 76, 7, 6, 79, 53, 10]
  -- yyr1 (event_parser.c:704-710)
  r1 := [
      0, 16, 17, 17, 18, 18, 19, 19, 20, 20, 20, 20, 20, 20, 20, 20, 20, 21, 21, 22, 22, 23, 23, 24, 25, 26, 27,
      27, 28, 29, 29, 30, 31, 31, 32, 33, 34, 34, 35, 35]
  -- yyr2 (event_parser.c:713-719)
  r2 := [
      0, 2, 2, 3, 1, 3, 3, 3, 1, 1, 1, 1, 1, 1, 1, 1, 1, 1, 1, 1, 2, 1, 2, 1, 2, 3, 1, 3, 3, 1, 3, 3, 1, 3, 5, 3,
      1, 3, 11, 13]
  ninf := -10
  ntokens := 16
  last := 73
  final := 7
  depth := 10000

end BeTree
