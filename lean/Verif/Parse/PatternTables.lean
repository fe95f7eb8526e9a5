import Verif.Parse.Tables
/-
The tables of lib/xslt/xpatterns/parser.c (354-671), extracted from the text of the file.
-/
namespace Verif.Parse

/-- lib/xslt/xpatterns/parser.c 354-671: `rhs_tokens` (cut at its zeros), `derives`, `rhs_size`,
`default_action`, `default_goto`, `action_idx`, `goto_idx`, `yytable`,
`yycheck` and the macros `YYLAST`, `YYFINAL`, `YYFLAG`, `YYNTBASE`. -/
def patternTables : Tables where
  rhs := [
    [], [34], [35], [34, 22, 35], [23], [23, 37], [36], [36, 23, 37], [36, 21, 37], [21, 37],
    [37], [5, 24, 7, 25], [6, 24, 7, 26, 7, 25], [38], [37, 23, 38], [37, 21, 38], [39, 46],
    [39, 46, 44], [], [27], [3, 20], [4, 20], [42], [41], [23], [23, 42], [49], [43],
    [42, 23, 43], [50], [45, 46], [45, 46, 44], [51], [47], [44, 47], [13, 20], [52], [10],
    [12, 24, 25], [12, 24, 7, 25], [28, 48, 29], [53], [21, 42], [42, 21, 43], [30], [19],
    [27], [], [61], [9], [24, 53, 25], [7], [8], [55], [11, 24, 25], [11, 24, 56, 25], [57],
    [56, 26, 57], [53], [59], [58, 22, 59], [40], [60], [60, 23, 42], [60, 21, 42], [54],
    [54, 44], [62], [61, 14, 62], [63], [62, 15, 63], [64], [63, 16, 64], [65], [64, 17, 65],
    [66], [65, 31, 66], [65, 32, 66], [67], [66, 18, 67], [58], [32, 58]]
  derives := [
    0, 33, 34, 34, 35, 35, 35, 35, 35, 35, 35, 36, 36, 37, 37, 37, 38, 38, 39, 39, 39, 39, 40,
    40, 41, 41, 41, 42, 42, 42, 43, 43, 43, 44, 44, 45, 45, 46, 46, 46, 47, 48, 49, 50, 51, 51,
    52, 52, 53, 54, 54, 54, 54, 54, 55, 55, 56, 56, 57, 58, 58, 59, 59, 59, 59, 60, 60, 61, 61,
    62, 62, 63, 63, 64, 64, 65, 65, 65, 66, 66, 67, 67]
  rhsSize := [
    0, 1, 1, 3, 1, 2, 1, 3, 3, 2, 1, 4, 6, 1, 3, 3, 2, 3, 0, 1, 2, 2, 1, 1, 1, 2, 1, 1, 3, 1,
    2, 3, 1, 1, 2, 2, 1, 1, 3, 4, 3, 1, 2, 3, 1, 1, 1, 0, 1, 1, 3, 1, 1, 1, 3, 4, 1, 3, 1, 1,
    3, 1, 1, 3, 3, 1, 2, 1, 3, 1, 3, 1, 3, 1, 3, 1, 3, 3, 1, 3, 1, 2]
  defaultAction := [
    18, 0, 0, 0, 0, 18, 4, 19, 1, 2, 6, 10, 13, 0, 20, 21, 0, 0, 9, 5, 18, 18, 18, 18, 18, 37,
    0, 16, 0, 0, 3, 8, 7, 15, 14, 0, 47, 17, 33, 11, 0, 0, 38, 51, 52, 49, 0, 0, 45, 47, 24,
    47, 46, 44, 47, 61, 23, 22, 27, 0, 0, 26, 29, 32, 36, 41, 65, 53, 80, 59, 62, 48, 67, 69,
    71, 73, 75, 78, 34, 0, 39, 47, 35, 42, 25, 0, 81, 47, 47, 30, 40, 66, 47, 47, 47, 47, 47,
    47, 47, 47, 47, 47, 12, 54, 58, 0, 56, 50, 43, 28, 31, 60, 64, 63, 68, 70, 72, 74, 76, 77,
    79, 55, 47, 57, 0, 0, 0]
  defaultGoto := [
    124, 8, 9, 10, 11, 12, 13, 55, 56, 57, 58, 37, 59, 27, 38, 60, 61, 62, 63, 64, 104, 66, 67,
    105, 106, 68, 69, 70, 71, 72, 73, 74, 75, 76, 77]
  actionIdx := [
    85, -12, -2, -11, 8, 7, 21, -32768, 34, -32768, -7, 17, -32768, 47, -32768, -32768, 43, 54,
    17, 17, 90, 40, 40, 40, 40, -32768, 41, 64, 46, 51, -32768, 17, 17, -32768, -32768, 5, -4,
    64, -32768, -32768, 77, 73, -32768, -32768, -32768, -32768, 80, 87, -32768, 56, 123, -4,
    -32768, -32768, 107, -32768, -32768, 49, -32768, 47, 92, -32768, -32768, -32768, -32768,
    -32768, 64, -32768, 83, -32768, 76, 105, 109, 111, 108, -10, 114, -32768, -32768, 104,
    -32768, 28, -32768, 49, 49, 115, 83, 56, 56, 64, -32768, 64, 107, 56, 56, 55, 55, 55, 55,
    55, 55, 55, -32768, -32768, -32768, 75, -32768, -32768, -32768, -32768, 64, -32768, 49, 49,
    109, 111, 108, -10, 114, 114, -32768, -32768, 55, -32768, 141, 143, -32768]
  gotoIdx := [
    -32768, -32768, 124, -32768, 117, 57, -32768, -32768, -32768, -48, 15, -60, -32768, 86,
    -37, -32768, -32768, -32768, -32768, -32768, -9, -32768, -32768, -32768, 24, 93, 59,
    -32768, -32768, 53, 58, 52, 60, 10, 61]
  table := [
    78, 83, 84, 43, 44, 45, 91, 46, 14, 47, 1, 2, 41, 16, 21, 48, 22, 49, 15, 50, 51, 99, 100,
    52, 1, 2, 53, 65, 54, 110, 42, -18, 17, -18, 7, 43, 44, 45, 23, 46, 24, 47, 85, 1, 2, 112,
    113, 48, 7, 49, 28, 50, 51, 103, 78, 52, 20, 25, 53, 26, 54, 29, 43, 44, 45, 35, 46, 7, 47,
    47, 87, 39, 88, 78, 48, 48, 49, 40, 50, 51, 33, 34, 52, 52, 79, 53, 53, 54, 1, 2, 3, 4, 36,
    1, 2, 3, 4, 93, 80, 94, 121, 122, 108, 109, 81, 92, 5, 82, 6, 118, 119, 5, 7, 6, 43, 44,
    45, 7, 46, 95, 47, 90, 18, 19, 96, 98, 48, 97, 49, 102, 50, 51, 101, -47, 52, -47, 47, 53,
    31, 32, 107, 125, 48, 126, 30, 89, 123, 86, 114, 116, 52, 111, 0, 53, 115, 0, 0, 0, 117, 0,
    0, 0, 120]
  check := [
    37, 49, 50, 7, 8, 9, 66, 11, 20, 13, 3, 4, 7, 24, 21, 19, 23, 21, 20, 23, 24, 31, 32, 27,
    3, 4, 30, 36, 32, 89, 25, 10, 24, 12, 27, 7, 8, 9, 21, 11, 23, 13, 51, 3, 4, 93, 94, 19,
    27, 21, 7, 23, 24, 25, 91, 27, 22, 10, 30, 12, 32, 7, 7, 8, 9, 24, 11, 27, 13, 13, 21, 25,
    23, 110, 19, 19, 21, 26, 23, 24, 23, 24, 27, 27, 7, 30, 30, 32, 3, 4, 5, 6, 28, 3, 4, 5, 6,
    21, 25, 23, 25, 26, 87, 88, 24, 22, 21, 20, 23, 99, 100, 21, 27, 23, 7, 8, 9, 27, 11, 14,
    13, 29, 5, 6, 15, 17, 19, 16, 21, 25, 23, 24, 18, 10, 27, 12, 13, 30, 21, 22, 25, 0, 19, 0,
    20, 59, 122, 54, 95, 97, 27, 92, -1, 30, 96, -1, -1, -1, 98, -1, -1, -1, 101]
  last := 162
  final := 126
  flag := -32768
  ntBase := 33

end Verif.Parse
