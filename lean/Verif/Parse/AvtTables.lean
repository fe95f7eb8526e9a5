import Verif.Parse.Tables
/-
The tables of lib/xslt/expressions/avt.c (331-606), extracted from the text of the file.
-/
namespace Verif.Parse

/-- lib/xslt/expressions/avt.c 331-606: `rhs_tokens` (cut at its zeros), `derives`, `rhs_size`,
`default_action`, `default_goto`, `action_idx`, `goto_idx`, `yytable`,
`yycheck` and the macros `YYLAST`, `YYFINAL`, `YYFLAG`, `YYNTBASE`. -/
def avtTables : Tables where
  rhs := [
    [], [34], [], [34, 35], [34, 36], [18], [19], [20, 50, 21], [39], [38], [22], [22, 39],
    [46], [40], [39, 22, 40], [47], [42, 43], [42, 43, 41], [48], [44], [41, 44], [9, 16],
    [49], [6], [8, 23, 24], [8, 23, 3, 24], [25, 45, 26], [50], [17, 39], [39, 17, 40], [27],
    [15], [28], [], [58], [5], [23, 50, 24], [3], [4], [52], [7, 23, 24], [7, 23, 53, 24],
    [54], [53, 29, 54], [50], [56], [55, 30, 56], [37], [57], [57, 22, 39], [57, 17, 39], [51],
    [51, 41], [59], [58, 10, 59], [60], [59, 11, 60], [61], [60, 12, 61], [62], [61, 13, 62],
    [63], [62, 31, 63], [62, 32, 63], [64], [63, 14, 64], [55], [32, 55]]
  derives := [
    0, 33, 34, 34, 34, 35, 35, 36, 37, 37, 38, 38, 38, 39, 39, 39, 40, 40, 40, 41, 41, 42, 42,
    43, 43, 43, 44, 45, 46, 47, 48, 48, 49, 49, 50, 51, 51, 51, 51, 51, 52, 52, 53, 53, 54, 55,
    55, 56, 56, 56, 56, 57, 57, 58, 58, 59, 59, 60, 60, 61, 61, 62, 62, 62, 63, 63, 64, 64]
  rhsSize := [
    0, 1, 0, 2, 2, 1, 1, 3, 1, 1, 1, 2, 1, 1, 3, 1, 2, 3, 1, 1, 2, 2, 1, 1, 3, 4, 3, 1, 2, 3,
    1, 1, 1, 0, 1, 1, 3, 1, 1, 1, 3, 4, 1, 3, 1, 1, 3, 1, 1, 3, 3, 1, 2, 1, 3, 1, 3, 1, 3, 1,
    3, 1, 3, 3, 1, 3, 1, 2]
  defaultAction := [
    2, 1, 5, 6, 33, 3, 4, 37, 38, 35, 0, 0, 31, 33, 10, 33, 30, 32, 33, 47, 9, 8, 13, 0, 12,
    15, 18, 22, 0, 51, 39, 66, 45, 48, 34, 53, 55, 57, 59, 61, 64, 33, 21, 28, 11, 0, 67, 33,
    33, 23, 0, 16, 7, 33, 52, 19, 33, 33, 33, 33, 33, 33, 33, 33, 33, 33, 40, 44, 0, 42, 36,
    29, 14, 0, 17, 0, 27, 20, 46, 50, 49, 54, 56, 58, 60, 62, 63, 65, 41, 33, 0, 24, 26, 43,
    25, 0, 0, 0]
  defaultGoto := [
    95, 1, 5, 6, 19, 20, 21, 22, 54, 23, 51, 55, 75, 24, 25, 26, 27, 67, 29, 30, 68, 69, 31,
    32, 33, 34, 35, 36, 37, 38, 39, 40]
  actionIdx := [
    -32768, 34, -32768, -32768, 0, -32768, -32768, -32768, -32768, -32768, -13, 4, -32768, 3,
    69, 0, -32768, -32768, 85, -32768, -32768, -3, -32768, 27, -32768, -32768, -32768, -32768,
    -8, 16, -32768, 17, -32768, -1, 41, 56, 57, 58, -7, 65, -32768, 33, -32768, -3, -3, 46, 17,
    3, 3, -32768, 49, 16, -32768, 59, 16, -32768, 85, 3, 3, 59, 59, 59, 59, 59, 59, 59, -32768,
    -32768, 10, -32768, -32768, -32768, -32768, 5, 16, 47, -32768, -32768, -32768, -3, -3, 56,
    57, 58, -7, 65, 65, -32768, -32768, 59, 61, -32768, -32768, -32768, -32768, 80, 83, -32768]
  gotoIdx := [
    -32768, -32768, -32768, -32768, -32768, -32768, -12, 11, 42, -32768, -32768, -48, -32768,
    -32768, -32768, -32768, -32768, -4, -32768, -32768, -32768, 6, 81, 45, -32768, -32768, 39,
    43, 44, 48, -20, 50]
  table := [
    28, 43, 44, 7, 8, 9, 77, 10, 90, 11, 41, 45, 11, 52, 47, 12, 57, 13, 12, 48, 42, 58, 14,
    15, 63, 64, 77, 16, 17, 91, 16, 17, 18, 49, 88, 50, 7, 8, 9, 89, 10, 53, 11, 85, 86, 79,
    80, 56, 12, 76, 13, 59, 2, 3, 4, 14, 15, 66, 71, 72, 16, 17, 7, 8, 9, 18, 10, 60, 11, 61,
    70, 62, 73, 92, 12, -33, 13, -33, 11, 65, 96, 14, 15, 97, 12, 94, 16, 17, 7, 8, 9, 18, 10,
    74, 11, 93, 16, 17, 81, 46, 12, 78, 13, 82, 0, 83, 0, 14, 15, 0, 84, 0, 16, 17, 0, 87]
  check := [
    4, 13, 14, 3, 4, 5, 54, 7, 3, 9, 23, 15, 9, 21, 17, 15, 17, 17, 15, 22, 16, 22, 22, 23, 31,
    32, 74, 27, 28, 24, 27, 28, 32, 6, 24, 8, 3, 4, 5, 29, 7, 25, 9, 63, 64, 57, 58, 30, 15,
    53, 17, 10, 18, 19, 20, 22, 23, 24, 47, 48, 27, 28, 3, 4, 5, 32, 7, 11, 9, 12, 24, 13, 23,
    26, 15, 6, 17, 8, 9, 14, 0, 22, 23, 0, 15, 24, 27, 28, 3, 4, 5, 32, 7, 51, 9, 89, 27, 28,
    59, 18, 15, 56, 17, 60, -1, 61, -1, 22, 23, -1, 62, -1, 27, 28, -1, 65]
  last := 115
  final := 97
  flag := -32768
  ntBase := 33

end Verif.Parse
