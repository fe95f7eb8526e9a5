import Verif.Parse.Tables
/-
The tables of lib/xpath/parser/xpathparser.c (309-562), extracted from the text of the file.
-/
namespace Verif.Parse

/-- lib/xpath/parser/xpathparser.c 309-562: `rhs_tokens` (cut at its zeros), `derives`, `rhs_size`,
`default_action`, `default_goto`, `action_idx`, `goto_idx`, `yytable`,
`yycheck` and the macros `YYLAST`, `YYFINAL`, `YYFLAG`, `YYNTBASE`. -/
def xpathTables : Tables where
  rhs := [
    [], [31], [30], [18], [18, 31], [38], [32], [31, 18, 32], [39], [34, 35], [34, 35, 33],
    [40], [36], [33, 36], [9, 16], [41], [6], [8, 19, 20], [8, 19, 3, 20], [21, 37, 22], [42],
    [17, 31], [31, 17, 32], [23], [15], [24], [], [50], [5], [19, 42, 20], [3], [4], [44],
    [7, 19, 20], [7, 19, 45, 20], [46], [45, 25, 46], [42], [48], [47, 26, 48], [29], [49],
    [49, 18, 31], [49, 17, 31], [43], [43, 33], [51], [50, 10, 51], [52], [51, 11, 52], [53],
    [52, 12, 53], [54], [53, 13, 54], [55], [54, 27, 55], [54, 28, 55], [56], [55, 14, 56],
    [47], [28, 47]]
  derives := [
    0, 29, 29, 30, 30, 30, 31, 31, 31, 32, 32, 32, 33, 33, 34, 34, 35, 35, 35, 36, 37, 38, 39,
    40, 40, 41, 41, 42, 43, 43, 43, 43, 43, 44, 44, 45, 45, 46, 47, 47, 48, 48, 48, 48, 49, 49,
    50, 50, 51, 51, 52, 52, 53, 53, 54, 54, 54, 55, 55, 56, 56]
  rhsSize := [
    0, 1, 1, 1, 2, 1, 1, 3, 1, 2, 3, 1, 1, 2, 2, 1, 1, 3, 4, 3, 1, 2, 3, 1, 1, 1, 0, 1, 1, 3,
    1, 1, 1, 3, 4, 1, 3, 1, 1, 3, 1, 1, 3, 3, 1, 2, 1, 3, 1, 3, 1, 3, 1, 3, 1, 3, 3, 1, 3, 1, 2]
  defaultAction := [
    26, 30, 31, 28, 0, 0, 24, 26, 3, 26, 23, 25, 26, 40, 2, 1, 6, 0, 5, 8, 11, 15, 44, 32, 59,
    38, 41, 27, 46, 48, 50, 52, 54, 57, 26, 14, 21, 4, 0, 60, 26, 26, 16, 0, 9, 26, 45, 12, 26,
    26, 26, 26, 26, 26, 26, 26, 26, 26, 33, 37, 0, 35, 29, 22, 7, 0, 10, 0, 20, 13, 39, 43, 42,
    47, 49, 51, 53, 55, 56, 58, 34, 26, 0, 17, 19, 36, 18, 0, 0, 0]
  defaultGoto := [
    13, 14, 15, 16, 46, 17, 44, 47, 67, 18, 19, 20, 21, 59, 22, 23, 60, 61, 24, 25, 26, 27, 28,
    29, 30, 31, 32, 33]
  actionIdx := [
    1, -32768, -32768, -32768, 18, 15, -32768, -2, 80, 1, -32768, -32768, 75, -32768, -32768,
    -3, -32768, 24, -32768, -32768, -32768, -32768, 26, -32768, 7, -32768, 9, 29, 50, 51, 54,
    14, 55, -32768, 31, -32768, -3, -3, 44, 7, -2, -2, -32768, 56, 26, 53, 26, -32768, 75, -2,
    -2, 53, 53, 53, 53, 53, 53, 53, -32768, -32768, -8, -32768, -32768, -32768, -32768, 8, 26,
    52, -32768, -32768, -32768, -3, -3, 50, 51, 54, 14, 55, 55, -32768, -32768, 53, 63, -32768,
    -32768, -32768, -32768, 73, 85, -32768]
  gotoIdx := [
    -32768, -32768, -6, 12, 43, -32768, -32768, -43, -32768, -32768, -32768, -32768, -32768, 0,
    -32768, -32768, -32768, 16, 79, 48, -32768, -32768, 49, 57, 58, 47, 10, 45]
  table := [
    87, 36, 37, 69, 1, 2, 3, 5, 4, 38, 5, 82, 80, 6, 40, 41, 6, 81, 7, 8, 9, 10, 11, 69, 10,
    11, 49, 50, 83, 12, 42, 35, 43, 48, 1, 2, 3, 34, 4, 51, 5, 55, 56, 71, 72, 68, 6, 45, 7, 8,
    9, 58, 63, 64, 10, 11, 1, 2, 3, 12, 4, 52, 5, 53, 62, 77, 78, 54, 6, 57, 7, 8, 9, 88, 84,
    65, 10, 11, 1, 2, 3, 12, 4, 86, 5, 89, -26, 66, -26, 5, 6, 39, 7, 8, 9, 6, 70, 85, 10, 11,
    73, 76, 79, 10, 11, 0, 0, 0, 0, 74, 0, 75]
  check := [
    0, 7, 8, 46, 3, 4, 5, 9, 7, 9, 9, 3, 20, 15, 17, 18, 15, 25, 17, 18, 19, 23, 24, 66, 23,
    24, 17, 18, 20, 28, 6, 16, 8, 26, 3, 4, 5, 19, 7, 10, 9, 27, 28, 49, 50, 45, 15, 21, 17,
    18, 19, 20, 40, 41, 23, 24, 3, 4, 5, 28, 7, 11, 9, 12, 20, 55, 56, 13, 15, 14, 17, 18, 19,
    0, 22, 19, 23, 24, 3, 4, 5, 28, 7, 20, 9, 0, 6, 44, 8, 9, 15, 12, 17, 18, 19, 15, 48, 81,
    23, 24, 51, 54, 57, 23, 24, -1, -1, -1, -1, 52, -1, 53]
  last := 111
  final := 89
  flag := -32768
  ntBase := 29

end Verif.Parse
