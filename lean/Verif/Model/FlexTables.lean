import Verif.Model.Flex
/-
The tables flex generated from lexer.l and event_lexer.l, as they stand in lexer.c and event_lexer.c.
-/
namespace BeTree

/-- the tables of the expression scanner (lexer.c:573-741); `YY_END_OF_BUFFER` (lexer.c:565), the constants 197 (lexer.c:1087) and 175
(lexer.c:1081) -/
def xxFlex : FlexTables where
  -- yy_accept (lexer.c:573-594)
  accept := [
      0, 0, 0, 41, 39, 1, 1, 39, 39, 39, 16, 17, 18, 9, 37, 14, 10, 12, 36, 36, 36, 36, 36, 36, 36, 36, 36, 36, 36,
      36, 39, 0, 34, 0, 24, 0, 35, 0, 38, 37, 15, 11, 13, 36, 36, 36, 36, 36, 36, 36, 20, 36, 36, 36, 27, 36, 36, 36,
      36, 26, 38, 36, 25, 36, 36, 36, 36, 0, 36, 28, 36, 36, 36, 36, 36, 0, 36, 36, 36, 36, 0, 0, 36, 0, 0, 36, 36,
      32, 36, 0, 36, 36, 33, 36, 0, 0, 0, 0, 0, 0, 36, 36, 36, 23, 36, 36, 36, 0, 0, 0, 0, 19, 21, 36, 36, 36, 36, 36,
      36, 0, 0, 30, 22, 36, 36, 36, 6, 36, 36, 31, 0, 36, 36, 36, 8, 36, 0, 36, 36, 36, 36, 36, 0, 36, 36, 36, 36, 36,
      29, 36, 36, 7, 36, 36, 36, 36, 36, 36, 36, 36, 36, 36, 4, 3, 36, 36, 36, 36, 36, 5, 36, 36, 36, 2, 0]
  -- yy_ec (lexer.c:596-626)
  ec := [
      0, 1, 1, 1, 1, 1, 1, 1, 1, 2, 3, 1, 1, 1, 1, 1, 1, 1, 1, 1, 1, 1, 1, 1, 1, 1, 1, 1, 1, 1, 1, 1, 4, 1, 5, 1, 1,
      1, 6, 7, 8, 9, 1, 1, 10, 11, 12, 1, 13, 13, 13, 13, 13, 13, 13, 13, 13, 13, 1, 1, 14, 15, 16, 1, 1, 17, 17, 17,
      17, 17, 17, 17, 17, 17, 17, 17, 17, 17, 17, 17, 17, 17, 17, 17, 17, 17, 17, 17, 17, 17, 17, 1, 18, 1, 1, 19, 1,
      20, 21, 22, 23, 24, 25, 26, 27, 28, 17, 17, 29, 30, 31, 32, 33, 34, 35, 36, 37, 38, 17, 39, 17, 40, 17, 1, 41,
      1, 1, 1, 1, 1, 1, 1, 1, 1, 1, 1, 1, 1, 1, 1, 1, 1, 1, 1, 1, 1, 1, 1, 1, 1, 1, 1, 1, 1, 1, 1, 1, 1, 1, 1, 1, 1,
      1, 1, 1, 1, 1, 1, 1, 1, 1, 1, 1, 1, 1, 1, 1, 1, 1, 1, 1, 1, 1, 1, 1, 1, 1, 1, 1, 1, 1, 1, 1, 1, 1, 1, 1, 1, 1,
      1, 1, 1, 1, 1, 1, 1, 1, 1, 1, 1, 1, 1, 1, 1, 1, 1, 1, 1, 1, 1, 1, 1, 1, 1, 1, 1, 1, 1, 1, 1, 1, 1, 1, 1, 1, 1,
      1, 1, 1, 1, 1, 1, 1, 1, 1, 1, 1, 1, 1, 1, 1, 1, 1, 1, 1, 1]
  -- yy_meta (lexer.c:628-635)
  metas := [
      0, 1, 1, 1, 1, 1, 1, 1, 1, 1, 1, 2, 1, 2, 1, 1, 1, 2, 1, 2, 2, 2, 2, 2, 2, 2, 2, 2, 2, 2, 2, 2, 2, 2, 2, 2, 2,
      2, 2, 2, 2, 1]
  -- yy_base (lexer.c:637-658)
  base := [
      0, 0, 0, 196, 197, 197, 197, 37, 189, 36, 197, 197, 197, 197, 32, 31, 197, 179, 0, 19, 161, 161, 171, 166, 20,
      157, 18, 28, 153, 159, 145, 52, 197, 182, 197, 51, 197, 181, 170, 47, 197, 197, 197, 0, 153, 158, 149, 156, 149,
      145, 0, 172, 30, 151, 0, 148, 153, 134, 134, 197, 157, 165, 0, 131, 131, 130, 146, 40, 140, 159, 158, 131, 125,
      135, 131, 125, 136, 136, 130, 114, 122, 30, 147, 122, 117, 124, 110, 0, 118, 120, 116, 104, 0, 114, 108, 103,
      110, 106, 106, 111, 104, 98, 102, 197, 101, 103, 93, 92, 124, 98, 101, 197, 197, 88, 105, 104, 86, 84, 93, 79,
      87, 197, 197, 98, 77, 90, 0, 87, 85, 197, 74, 42, 83, 75, 0, 78, 79, 83, 78, 68, 80, 84, 73, 76, 63, 72, 64, 62,
      197, 64, 68, 0, 56, 73, 57, 63, 66, 66, 64, 56, 55, 52, 0, 0, 57, 40, 37, 40, 56, 0, 52, 53, 39, 0, 197, 81, 83,
      64]
  -- yy_def (lexer.c:660-681)
  defs := [
      0, 174, 1, 174, 174, 174, 174, 175, 174, 176, 174, 174, 174, 174, 174, 174, 174, 174, 177, 177, 177, 177, 177,
      177, 177, 177, 177, 177, 177, 177, 174, 175, 174, 175, 174, 176, 174, 176, 174, 174, 174, 174, 174, 177, 177,
      177, 177, 177, 177, 177, 177, 177, 177, 177, 177, 177, 177, 177, 177, 174, 174, 177, 177, 177, 177, 177, 177,
      174, 177, 177, 177, 177, 177, 177, 177, 174, 177, 177, 177, 177, 174, 174, 177, 174, 174, 177, 177, 177, 177,
      174, 177, 177, 177, 177, 174, 174, 174, 174, 174, 174, 177, 177, 177, 174, 177, 177, 177, 174, 174, 174, 174,
      174, 174, 177, 177, 177, 177, 177, 177, 174, 174, 174, 174, 177, 177, 177, 177, 177, 177, 174, 174, 177, 177,
      177, 177, 177, 174, 177, 177, 177, 177, 177, 174, 177, 177, 177, 177, 177, 174, 177, 177, 177, 177, 177, 177,
      177, 177, 177, 177, 177, 177, 177, 177, 177, 177, 177, 177, 177, 177, 177, 177, 177, 177, 177, 0, 174, 174, 174]
  -- yy_nxt (lexer.c:683-711)
  nxt := [
      0, 4, 5, 6, 5, 7, 8, 9, 10, 11, 12, 13, 4, 14, 15, 16, 17, 18, 4, 18, 19, 18, 20, 18, 21, 22, 23, 18, 24, 18,
      18, 25, 26, 18, 18, 18, 27, 28, 18, 29, 18, 30, 32, 36, 38, 39, 40, 41, 44, 53, 45, 50, 55, 54, 37, 33, 51, 32,
      36, 38, 39, 68, 95, 137, 80, 56, 43, 69, 96, 37, 33, 81, 173, 172, 171, 170, 169, 168, 167, 166, 165, 138, 31,
      31, 35, 35, 164, 163, 162, 161, 160, 159, 158, 157, 156, 155, 154, 153, 152, 151, 150, 149, 148, 147, 146, 145,
      144, 143, 142, 141, 140, 139, 136, 135, 134, 133, 132, 131, 130, 129, 128, 127, 126, 125, 124, 123, 122, 121,
      120, 119, 118, 117, 116, 115, 114, 113, 112, 111, 110, 109, 108, 107, 106, 105, 104, 103, 102, 101, 100, 99, 98,
      97, 94, 93, 92, 91, 90, 89, 88, 87, 86, 85, 84, 83, 82, 79, 78, 77, 76, 75, 60, 74, 73, 72, 71, 70, 67, 66, 65,
      64, 63, 62, 61, 60, 174, 174, 59, 58, 57, 52, 49, 48, 47, 46, 42, 34, 174, 3, 174, 174, 174, 174, 174, 174, 174,
      174, 174, 174, 174, 174, 174, 174, 174, 174, 174, 174, 174, 174, 174, 174, 174, 174, 174, 174, 174, 174, 174,
      174, 174, 174, 174, 174, 174, 174, 174, 174, 174, 174, 174]
  -- yy_chk (lexer.c:713-741)
  chk := [
      0, 1, 1, 1, 1, 1, 1, 1, 1, 1, 1, 1, 1, 1, 1, 1, 1, 1, 1, 1, 1, 1, 1, 1, 1, 1, 1, 1, 1, 1, 1, 1, 1, 1, 1, 1, 1,
      1, 1, 1, 1, 1, 7, 9, 14, 14, 15, 15, 19, 26, 19, 24, 27, 26, 9, 7, 24, 31, 35, 39, 39, 52, 81, 131, 67, 27, 177,
      52, 81, 35, 31, 67, 172, 171, 170, 168, 167, 166, 165, 164, 161, 131, 175, 175, 176, 176, 160, 159, 158, 157,
      156, 155, 154, 153, 152, 150, 149, 147, 146, 145, 144, 143, 142, 141, 140, 139, 138, 137, 136, 135, 133, 132,
      130, 128, 127, 125, 124, 123, 120, 119, 118, 117, 116, 115, 114, 113, 110, 109, 108, 107, 106, 105, 104, 102,
      101, 100, 99, 98, 97, 96, 95, 94, 93, 91, 90, 89, 88, 86, 85, 84, 83, 82, 80, 79, 78, 77, 76, 75, 74, 73, 72,
      71, 70, 69, 68, 66, 65, 64, 63, 61, 60, 58, 57, 56, 55, 53, 51, 49, 48, 47, 46, 45, 44, 38, 37, 33, 30, 29, 28,
      25, 23, 22, 21, 20, 17, 8, 3, 174, 174, 174, 174, 174, 174, 174, 174, 174, 174, 174, 174, 174, 174, 174, 174,
      174, 174, 174, 174, 174, 174, 174, 174, 174, 174, 174, 174, 174, 174, 174, 174, 174, 174, 174, 174, 174, 174,
      174, 174, 174, 174]
  jamBase := 197
  templates := 175
  endOfBuffer := 41

/-- the tables of the event scanner (event_lexer.c:573-660); `YY_END_OF_BUFFER` (event_lexer.c:565), the constants 54
(event_lexer.c:1005) and 40 (event_lexer.c:999) -/
def zzFlex : FlexTables where
  -- yy_accept (event_lexer.c:573-579)
  accept := [
      0, 0, 0, 18, 16, 1, 1, 16, 16, 7, 2, 14, 8, 3, 4, 16, 16, 16, 5, 6, 0, 12, 0, 0, 13, 0, 15, 14, 0, 0, 0, 15, 0,
      0, 0, 0, 11, 9, 10, 0]
  -- yy_ec (event_lexer.c:581-611)
  ec := [
      0, 1, 1, 1, 1, 1, 1, 1, 1, 2, 3, 1, 1, 1, 1, 1, 1, 1, 1, 1, 1, 1, 1, 1, 1, 1, 1, 1, 1, 1, 1, 1, 2, 1, 4, 1, 1,
      1, 1, 5, 1, 1, 1, 1, 6, 7, 8, 1, 9, 9, 9, 9, 9, 9, 9, 9, 9, 9, 10, 1, 1, 1, 1, 1, 1, 1, 1, 1, 1, 1, 1, 1, 1, 1,
      1, 1, 1, 1, 1, 1, 1, 1, 1, 1, 1, 1, 1, 1, 1, 1, 1, 11, 12, 13, 1, 1, 1, 14, 1, 1, 1, 15, 16, 1, 1, 1, 1, 1, 17,
      1, 18, 1, 1, 1, 19, 20, 21, 22, 1, 1, 1, 1, 1, 23, 1, 24, 1, 1, 1, 1, 1, 1, 1, 1, 1, 1, 1, 1, 1, 1, 1, 1, 1, 1,
      1, 1, 1, 1, 1, 1, 1, 1, 1, 1, 1, 1, 1, 1, 1, 1, 1, 1, 1, 1, 1, 1, 1, 1, 1, 1, 1, 1, 1, 1, 1, 1, 1, 1, 1, 1, 1,
      1, 1, 1, 1, 1, 1, 1, 1, 1, 1, 1, 1, 1, 1, 1, 1, 1, 1, 1, 1, 1, 1, 1, 1, 1, 1, 1, 1, 1, 1, 1, 1, 1, 1, 1, 1, 1,
      1, 1, 1, 1, 1, 1, 1, 1, 1, 1, 1, 1, 1, 1, 1, 1, 1, 1, 1, 1, 1, 1, 1, 1, 1, 1, 1, 1, 1, 1, 1, 1, 1, 1, 1, 1, 1, 1]
  -- yy_meta (event_lexer.c:613-618)
  metas := [
      0, 1, 1, 1, 1, 1, 1, 1, 1, 1, 1, 1, 1, 1, 1, 1, 1, 1, 1, 1, 1, 1, 1, 1, 1]
  -- yy_base (event_lexer.c:620-627)
  base := [
      0, 0, 0, 53, 54, 54, 54, 21, 22, 54, 54, 20, 54, 54, 54, 38, 29, 31, 54, 54, 26, 54, 46, 27, 54, 45, 38, 27, 29,
      28, 22, 34, 22, 24, 25, 22, 54, 54, 54, 54, 30, 25]
  -- yy_def (event_lexer.c:629-636)
  defs := [
      0, 39, 1, 39, 39, 39, 39, 40, 41, 39, 39, 39, 39, 39, 39, 39, 39, 39, 39, 39, 40, 39, 40, 41, 39, 41, 39, 39,
      39, 39, 39, 39, 39, 39, 39, 39, 39, 39, 39, 0, 39, 39]
  -- yy_nxt (event_lexer.c:638-648)
  nxt := [
      0, 4, 5, 6, 7, 8, 9, 10, 4, 11, 12, 13, 4, 14, 4, 4, 15, 4, 16, 4, 4, 17, 4, 18, 19, 21, 23, 24, 26, 27, 21, 20,
      24, 22, 25, 26, 27, 38, 22, 25, 37, 36, 35, 31, 34, 33, 32, 31, 39, 39, 30, 29, 28, 39, 3, 39, 39, 39, 39, 39,
      39, 39, 39, 39, 39, 39, 39, 39, 39, 39, 39, 39, 39, 39, 39, 39, 39, 39, 39]
  -- yy_chk (event_lexer.c:650-660)
  chk := [
      0, 1, 1, 1, 1, 1, 1, 1, 1, 1, 1, 1, 1, 1, 1, 1, 1, 1, 1, 1, 1, 1, 1, 1, 1, 7, 41, 8, 11, 11, 20, 40, 23, 7, 8,
      27, 27, 35, 20, 23, 34, 33, 32, 31, 30, 29, 28, 26, 25, 22, 17, 16, 15, 3, 39, 39, 39, 39, 39, 39, 39, 39, 39,
      39, 39, 39, 39, 39, 39, 39, 39, 39, 39, 39, 39, 39, 39, 39, 39]
  jamBase := 54
  templates := 40
  endOfBuffer := 18

end BeTree
