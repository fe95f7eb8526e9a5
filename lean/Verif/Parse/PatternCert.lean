import Verif.Parse.Cert
import Verif.Parse.PatternTables
/-
The certificate for the tables of lib/xslt/xpatterns/parser.c: the LALR(1) items of its states and
what the stack looks like in each.  Found by a script, checked here.
-/
namespace Verif.Parse

def patternCert : Cert where
  start := 33
  items := [
    [
      (0, 0, 1), (1, 0, 1), (2, 0, 4194305), (3, 0, 4194305), (4, 0, 4194305), (5, 0, 4194305),
      (6, 0, 4194305), (7, 0, 4194305), (8, 0, 4194305), (9, 0, 4194305), (10, 0, 4194305),
      (11, 0, 14680065), (12, 0, 14680065), (13, 0, 14680065), (14, 0, 14680065),
      (15, 0, 14680065), (16, 0, 14680065), (17, 0, 14680065), (18, 0, 5120), (19, 0, 5120),
      (20, 0, 5120), (21, 0, 5120)],
    [(20, 1, 5120)],
    [(21, 1, 5120)],
    [(11, 1, 14680065)],
    [(12, 1, 14680065)],
    [
      (9, 1, 4194305), (13, 0, 14680065), (14, 0, 14680065), (15, 0, 14680065),
      (16, 0, 14680065), (17, 0, 14680065), (18, 0, 5120), (19, 0, 5120), (20, 0, 5120),
      (21, 0, 5120)],
    [
      (4, 1, 4194305), (5, 1, 4194305), (13, 0, 14680065), (14, 0, 14680065),
      (15, 0, 14680065), (16, 0, 14680065), (17, 0, 14680065), (18, 0, 5120), (19, 0, 5120),
      (20, 0, 5120), (21, 0, 5120)],
    [(19, 1, 5120)],
    [(1, 1, 1), (3, 1, 4194305)],
    [(2, 1, 4194305)],
    [(6, 1, 4194305), (7, 1, 4194305), (8, 1, 4194305)],
    [(10, 1, 4194305), (14, 1, 14680065), (15, 1, 14680065)],
    [(13, 1, 14680065)],
    [
      (16, 1, 14680065), (17, 1, 14680065), (37, 0, 283115521), (38, 0, 283115521),
      (39, 0, 283115521)],
    [(20, 2, 5120)],
    [(21, 2, 5120)],
    [(11, 2, 14680065)],
    [(12, 2, 14680065)],
    [(9, 2, 4194305), (14, 1, 14680065), (15, 1, 14680065)],
    [(5, 2, 4194305), (14, 1, 14680065), (15, 1, 14680065)],
    [
      (3, 2, 4194305), (4, 0, 4194305), (5, 0, 4194305), (6, 0, 4194305), (7, 0, 4194305),
      (8, 0, 4194305), (9, 0, 4194305), (10, 0, 4194305), (11, 0, 14680065), (12, 0, 14680065),
      (13, 0, 14680065), (14, 0, 14680065), (15, 0, 14680065), (16, 0, 14680065),
      (17, 0, 14680065), (18, 0, 5120), (19, 0, 5120), (20, 0, 5120), (21, 0, 5120)],
    [
      (8, 2, 4194305), (13, 0, 14680065), (14, 0, 14680065), (15, 0, 14680065),
      (16, 0, 14680065), (17, 0, 14680065), (18, 0, 5120), (19, 0, 5120), (20, 0, 5120),
      (21, 0, 5120)],
    [
      (7, 2, 4194305), (13, 0, 14680065), (14, 0, 14680065), (15, 0, 14680065),
      (16, 0, 14680065), (17, 0, 14680065), (18, 0, 5120), (19, 0, 5120), (20, 0, 5120),
      (21, 0, 5120)],
    [
      (15, 2, 14680065), (16, 0, 14680065), (17, 0, 14680065), (18, 0, 5120), (19, 0, 5120),
      (20, 0, 5120), (21, 0, 5120)],
    [
      (14, 2, 14680065), (16, 0, 14680065), (17, 0, 14680065), (18, 0, 5120), (19, 0, 5120),
      (20, 0, 5120), (21, 0, 5120)],
    [(37, 1, 7363608577)],
    [(38, 1, 7363608577), (39, 1, 7363608577)],
    [
      (16, 2, 14680065), (17, 2, 14680065), (33, 0, 283115521), (34, 0, 283115521),
      (40, 0, 283115521)],
    [(11, 3, 14680065)],
    [(12, 3, 14680065)],
    [(3, 3, 4194305)],
    [(8, 3, 4194305), (14, 1, 14680065), (15, 1, 14680065)],
    [(7, 3, 4194305), (14, 1, 14680065), (15, 1, 14680065)],
    [(15, 3, 14680065)],
    [(14, 3, 14680065)],
    [(38, 2, 7363608577), (39, 2, 7363608577)],
    [
      (22, 0, 6984024064), (23, 0, 6984024064), (24, 0, 6984024064), (25, 0, 6984024064),
      (26, 0, 6984024064), (27, 0, 6994509824), (28, 0, 6994509824), (29, 0, 6994509824),
      (30, 0, 6994509824), (31, 0, 6994509824), (32, 0, 6994509824), (35, 0, 5120),
      (36, 0, 5120), (40, 1, 7363608577), (41, 0, 536870912), (42, 0, 6984024064),
      (43, 0, 6994509824), (44, 0, 6994509824), (45, 0, 6994509824), (46, 0, 5120),
      (47, 0, 5120), (48, 0, 536870912), (49, 0, 7262945280), (50, 0, 7262945280),
      (51, 0, 7262945280), (52, 0, 7262945280), (53, 0, 7262945280), (54, 0, 7262945280),
      (55, 0, 7262945280), (59, 0, 6984024064), (60, 0, 6984024064), (61, 0, 6984024064),
      (62, 0, 6984024064), (63, 0, 6984024064), (64, 0, 6984024064), (65, 0, 6994509824),
      (66, 0, 6994509824), (67, 0, 536887296), (68, 0, 536887296), (69, 0, 536920064),
      (70, 0, 536920064), (71, 0, 536985600), (72, 0, 536985600), (73, 0, 537116672),
      (74, 0, 537116672), (75, 0, 6979567616), (76, 0, 6979567616), (77, 0, 6979567616),
      (78, 0, 6979829760), (79, 0, 6979829760), (80, 0, 6979829760), (81, 0, 6979829760)],
    [(17, 3, 14680065), (34, 1, 283115521), (40, 0, 283115521)],
    [(33, 1, 7363608577)],
    [(11, 4, 14680065)],
    [(12, 4, 14680065)],
    [(39, 3, 7363608577)],
    [(38, 3, 7363608577)],
    [(51, 1, 7363608576)],
    [(52, 1, 7363608576)],
    [(49, 1, 7363608576)],
    [(54, 1, 7363608576), (55, 1, 7363608576)],
    [(35, 1, 5120)],
    [(45, 1, 7095173120)],
    [
      (27, 0, 7095173120), (28, 0, 7095173120), (29, 0, 7095173120), (30, 0, 7095173120),
      (31, 0, 7095173120), (32, 0, 7095173120), (35, 0, 5120), (36, 0, 5120),
      (42, 1, 7084687360), (43, 0, 7095173120), (44, 0, 7095173120), (45, 0, 7095173120),
      (46, 0, 5120), (47, 0, 5120)],
    [
      (24, 1, 7084687360), (25, 1, 7084687360), (27, 0, 7095173120), (28, 0, 7095173120),
      (29, 0, 7095173120), (30, 0, 7095173120), (31, 0, 7095173120), (32, 0, 7095173120),
      (35, 0, 5120), (36, 0, 5120), (43, 0, 7095173120), (44, 0, 7095173120),
      (45, 0, 7095173120), (46, 0, 5120), (47, 0, 5120)],
    [
      (22, 0, 6480707584), (23, 0, 6480707584), (24, 0, 6480707584), (25, 0, 6480707584),
      (26, 0, 6480707584), (27, 0, 6491193344), (28, 0, 6491193344), (29, 0, 6491193344),
      (30, 0, 6491193344), (31, 0, 6491193344), (32, 0, 6491193344), (35, 0, 5120),
      (36, 0, 5120), (42, 0, 6480707584), (43, 0, 6491193344), (44, 0, 6491193344),
      (45, 0, 6491193344), (46, 0, 5120), (47, 0, 5120), (48, 0, 33554432),
      (49, 0, 6759628800), (50, 0, 6759628800), (50, 1, 7363608576), (51, 0, 6759628800),
      (52, 0, 6759628800), (53, 0, 6759628800), (54, 0, 6759628800), (55, 0, 6759628800),
      (59, 0, 6480707584), (60, 0, 6480707584), (61, 0, 6480707584), (62, 0, 6480707584),
      (63, 0, 6480707584), (64, 0, 6480707584), (65, 0, 6491193344), (66, 0, 6491193344),
      (67, 0, 33570816), (68, 0, 33570816), (69, 0, 33603584), (70, 0, 33603584),
      (71, 0, 33669120), (72, 0, 33669120), (73, 0, 33800192), (74, 0, 33800192),
      (75, 0, 6476251136), (76, 0, 6476251136), (77, 0, 6476251136), (78, 0, 6476513280),
      (79, 0, 6476513280), (80, 0, 6476513280), (81, 0, 6476513280)],
    [(46, 1, 5120)],
    [(44, 1, 7095173120)],
    [
      (22, 0, 7084687360), (23, 0, 7084687360), (24, 0, 7084687360), (25, 0, 7084687360),
      (26, 0, 7084687360), (27, 0, 7095173120), (28, 0, 7095173120), (29, 0, 7095173120),
      (30, 0, 7095173120), (31, 0, 7095173120), (32, 0, 7095173120), (35, 0, 5120),
      (36, 0, 5120), (42, 0, 7084687360), (43, 0, 7095173120), (44, 0, 7095173120),
      (45, 0, 7095173120), (46, 0, 5120), (47, 0, 5120), (49, 0, 7363608576),
      (50, 0, 7363608576), (51, 0, 7363608576), (52, 0, 7363608576), (53, 0, 7363608576),
      (54, 0, 7363608576), (55, 0, 7363608576), (59, 0, 7084687360), (60, 0, 7084687360),
      (61, 0, 7084687360), (62, 0, 7084687360), (63, 0, 7084687360), (64, 0, 7084687360),
      (65, 0, 7095173120), (66, 0, 7095173120), (81, 1, 7080493056)],
    [(61, 1, 7084687360)],
    [(23, 1, 7084687360)],
    [(22, 1, 7084687360), (28, 1, 7095173120), (43, 1, 7095173120)],
    [(27, 1, 7095173120)],
    [
      (30, 1, 7095173120), (31, 1, 7095173120), (37, 0, 7363608576), (38, 0, 7363608576),
      (39, 0, 7363608576)],
    [(40, 2, 7363608577)],
    [(26, 1, 7084687360)],
    [(29, 1, 7095173120)],
    [(32, 1, 7095173120)],
    [(36, 1, 5120)],
    [(41, 1, 536870912)],
    [
      (33, 0, 7363608576), (34, 0, 7363608576), (40, 0, 7363608576), (65, 1, 7095173120),
      (66, 1, 7095173120)],
    [(53, 1, 7363608576)],
    [(60, 1, 7084687360), (80, 1, 7080493056)],
    [(59, 1, 7084687360)],
    [(62, 1, 7084687360), (63, 1, 7084687360), (64, 1, 7084687360)],
    [(48, 1, 637534208), (68, 1, 637550592)],
    [(67, 1, 637550592), (70, 1, 637583360)],
    [(69, 1, 637583360), (72, 1, 637648896)],
    [(71, 1, 637648896), (74, 1, 637779968)],
    [(73, 1, 637779968), (76, 1, 7080230912), (77, 1, 7080230912)],
    [(75, 1, 7080230912), (79, 1, 7080493056)],
    [(78, 1, 7080493056)],
    [(34, 2, 7363608577)],
    [(12, 5, 14680065)],
    [(39, 4, 7363608577)],
    [
      (22, 0, 6547816448), (23, 0, 6547816448), (24, 0, 6547816448), (25, 0, 6547816448),
      (26, 0, 6547816448), (27, 0, 6558302208), (28, 0, 6558302208), (29, 0, 6558302208),
      (30, 0, 6558302208), (31, 0, 6558302208), (32, 0, 6558302208), (35, 0, 5120),
      (36, 0, 5120), (42, 0, 6547816448), (43, 0, 6558302208), (44, 0, 6558302208),
      (45, 0, 6558302208), (46, 0, 5120), (47, 0, 5120), (48, 0, 100663296),
      (49, 0, 6826737664), (50, 0, 6826737664), (51, 0, 6826737664), (52, 0, 6826737664),
      (53, 0, 6826737664), (54, 0, 6826737664), (54, 2, 7363608576), (55, 0, 6826737664),
      (55, 2, 7363608576), (56, 0, 100663296), (57, 0, 100663296), (58, 0, 100663296),
      (59, 0, 6547816448), (60, 0, 6547816448), (61, 0, 6547816448), (62, 0, 6547816448),
      (63, 0, 6547816448), (64, 0, 6547816448), (65, 0, 6558302208), (66, 0, 6558302208),
      (67, 0, 100679680), (68, 0, 100679680), (69, 0, 100712448), (70, 0, 100712448),
      (71, 0, 100777984), (72, 0, 100777984), (73, 0, 100909056), (74, 0, 100909056),
      (75, 0, 6543360000), (76, 0, 6543360000), (77, 0, 6543360000), (78, 0, 6543622144),
      (79, 0, 6543622144), (80, 0, 6543622144), (81, 0, 6543622144)],
    [(35, 2, 5120)],
    [(28, 1, 7095173120), (42, 2, 7084687360), (43, 1, 7095173120)],
    [(25, 2, 7084687360), (28, 1, 7095173120), (43, 1, 7095173120)],
    [(50, 2, 7363608576)],
    [(60, 1, 7084687360), (81, 2, 7080493056)],
    [
      (30, 0, 7095173120), (31, 0, 7095173120), (32, 0, 7095173120), (35, 0, 5120),
      (36, 0, 5120), (43, 2, 7095173120), (44, 0, 7095173120), (45, 0, 7095173120),
      (46, 0, 5120), (47, 0, 5120)],
    [
      (28, 2, 7095173120), (30, 0, 7095173120), (31, 0, 7095173120), (32, 0, 7095173120),
      (35, 0, 5120), (36, 0, 5120), (44, 0, 7095173120), (45, 0, 7095173120), (46, 0, 5120),
      (47, 0, 5120)],
    [
      (30, 2, 7095173120), (31, 2, 7095173120), (33, 0, 7363608576), (34, 0, 7363608576),
      (40, 0, 7363608576)],
    [(40, 3, 7363608577)],
    [(34, 1, 7363608576), (40, 0, 7363608576), (66, 2, 7095173120)],
    [
      (22, 0, 7084687360), (23, 0, 7084687360), (24, 0, 7084687360), (25, 0, 7084687360),
      (26, 0, 7084687360), (27, 0, 7095173120), (28, 0, 7095173120), (29, 0, 7095173120),
      (30, 0, 7095173120), (31, 0, 7095173120), (32, 0, 7095173120), (35, 0, 5120),
      (36, 0, 5120), (42, 0, 7084687360), (43, 0, 7095173120), (44, 0, 7095173120),
      (45, 0, 7095173120), (46, 0, 5120), (47, 0, 5120), (49, 0, 7363608576),
      (50, 0, 7363608576), (51, 0, 7363608576), (52, 0, 7363608576), (53, 0, 7363608576),
      (54, 0, 7363608576), (55, 0, 7363608576), (60, 2, 7084687360), (61, 0, 7084687360),
      (62, 0, 7084687360), (63, 0, 7084687360), (64, 0, 7084687360), (65, 0, 7095173120),
      (66, 0, 7095173120)],
    [
      (27, 0, 7095173120), (28, 0, 7095173120), (29, 0, 7095173120), (30, 0, 7095173120),
      (31, 0, 7095173120), (32, 0, 7095173120), (35, 0, 5120), (36, 0, 5120),
      (43, 0, 7095173120), (44, 0, 7095173120), (45, 0, 7095173120), (46, 0, 5120),
      (47, 0, 5120), (64, 2, 7084687360)],
    [
      (27, 0, 7095173120), (28, 0, 7095173120), (29, 0, 7095173120), (30, 0, 7095173120),
      (31, 0, 7095173120), (32, 0, 7095173120), (35, 0, 5120), (36, 0, 5120),
      (43, 0, 7095173120), (44, 0, 7095173120), (45, 0, 7095173120), (46, 0, 5120),
      (47, 0, 5120), (63, 2, 7084687360)],
    [
      (22, 0, 7084687360), (23, 0, 7084687360), (24, 0, 7084687360), (25, 0, 7084687360),
      (26, 0, 7084687360), (27, 0, 7095173120), (28, 0, 7095173120), (29, 0, 7095173120),
      (30, 0, 7095173120), (31, 0, 7095173120), (32, 0, 7095173120), (35, 0, 5120),
      (36, 0, 5120), (42, 0, 7084687360), (43, 0, 7095173120), (44, 0, 7095173120),
      (45, 0, 7095173120), (46, 0, 5120), (47, 0, 5120), (49, 0, 7363608576),
      (50, 0, 7363608576), (51, 0, 7363608576), (52, 0, 7363608576), (53, 0, 7363608576),
      (54, 0, 7363608576), (55, 0, 7363608576), (59, 0, 7084687360), (60, 0, 7084687360),
      (61, 0, 7084687360), (62, 0, 7084687360), (63, 0, 7084687360), (64, 0, 7084687360),
      (65, 0, 7095173120), (66, 0, 7095173120), (68, 2, 637550592), (69, 0, 637583360),
      (70, 0, 637583360), (71, 0, 637648896), (72, 0, 637648896), (73, 0, 637779968),
      (74, 0, 637779968), (75, 0, 7080230912), (76, 0, 7080230912), (77, 0, 7080230912),
      (78, 0, 7080493056), (79, 0, 7080493056), (80, 0, 7080493056), (81, 0, 7080493056)],
    [
      (22, 0, 7084687360), (23, 0, 7084687360), (24, 0, 7084687360), (25, 0, 7084687360),
      (26, 0, 7084687360), (27, 0, 7095173120), (28, 0, 7095173120), (29, 0, 7095173120),
      (30, 0, 7095173120), (31, 0, 7095173120), (32, 0, 7095173120), (35, 0, 5120),
      (36, 0, 5120), (42, 0, 7084687360), (43, 0, 7095173120), (44, 0, 7095173120),
      (45, 0, 7095173120), (46, 0, 5120), (47, 0, 5120), (49, 0, 7363608576),
      (50, 0, 7363608576), (51, 0, 7363608576), (52, 0, 7363608576), (53, 0, 7363608576),
      (54, 0, 7363608576), (55, 0, 7363608576), (59, 0, 7084687360), (60, 0, 7084687360),
      (61, 0, 7084687360), (62, 0, 7084687360), (63, 0, 7084687360), (64, 0, 7084687360),
      (65, 0, 7095173120), (66, 0, 7095173120), (70, 2, 637583360), (71, 0, 637648896),
      (72, 0, 637648896), (73, 0, 637779968), (74, 0, 637779968), (75, 0, 7080230912),
      (76, 0, 7080230912), (77, 0, 7080230912), (78, 0, 7080493056), (79, 0, 7080493056),
      (80, 0, 7080493056), (81, 0, 7080493056)],
    [
      (22, 0, 7084687360), (23, 0, 7084687360), (24, 0, 7084687360), (25, 0, 7084687360),
      (26, 0, 7084687360), (27, 0, 7095173120), (28, 0, 7095173120), (29, 0, 7095173120),
      (30, 0, 7095173120), (31, 0, 7095173120), (32, 0, 7095173120), (35, 0, 5120),
      (36, 0, 5120), (42, 0, 7084687360), (43, 0, 7095173120), (44, 0, 7095173120),
      (45, 0, 7095173120), (46, 0, 5120), (47, 0, 5120), (49, 0, 7363608576),
      (50, 0, 7363608576), (51, 0, 7363608576), (52, 0, 7363608576), (53, 0, 7363608576),
      (54, 0, 7363608576), (55, 0, 7363608576), (59, 0, 7084687360), (60, 0, 7084687360),
      (61, 0, 7084687360), (62, 0, 7084687360), (63, 0, 7084687360), (64, 0, 7084687360),
      (65, 0, 7095173120), (66, 0, 7095173120), (72, 2, 637648896), (73, 0, 637779968),
      (74, 0, 637779968), (75, 0, 7080230912), (76, 0, 7080230912), (77, 0, 7080230912),
      (78, 0, 7080493056), (79, 0, 7080493056), (80, 0, 7080493056), (81, 0, 7080493056)],
    [
      (22, 0, 7084687360), (23, 0, 7084687360), (24, 0, 7084687360), (25, 0, 7084687360),
      (26, 0, 7084687360), (27, 0, 7095173120), (28, 0, 7095173120), (29, 0, 7095173120),
      (30, 0, 7095173120), (31, 0, 7095173120), (32, 0, 7095173120), (35, 0, 5120),
      (36, 0, 5120), (42, 0, 7084687360), (43, 0, 7095173120), (44, 0, 7095173120),
      (45, 0, 7095173120), (46, 0, 5120), (47, 0, 5120), (49, 0, 7363608576),
      (50, 0, 7363608576), (51, 0, 7363608576), (52, 0, 7363608576), (53, 0, 7363608576),
      (54, 0, 7363608576), (55, 0, 7363608576), (59, 0, 7084687360), (60, 0, 7084687360),
      (61, 0, 7084687360), (62, 0, 7084687360), (63, 0, 7084687360), (64, 0, 7084687360),
      (65, 0, 7095173120), (66, 0, 7095173120), (74, 2, 637779968), (75, 0, 7080230912),
      (76, 0, 7080230912), (77, 0, 7080230912), (78, 0, 7080493056), (79, 0, 7080493056),
      (80, 0, 7080493056), (81, 0, 7080493056)],
    [
      (22, 0, 7084687360), (23, 0, 7084687360), (24, 0, 7084687360), (25, 0, 7084687360),
      (26, 0, 7084687360), (27, 0, 7095173120), (28, 0, 7095173120), (29, 0, 7095173120),
      (30, 0, 7095173120), (31, 0, 7095173120), (32, 0, 7095173120), (35, 0, 5120),
      (36, 0, 5120), (42, 0, 7084687360), (43, 0, 7095173120), (44, 0, 7095173120),
      (45, 0, 7095173120), (46, 0, 5120), (47, 0, 5120), (49, 0, 7363608576),
      (50, 0, 7363608576), (51, 0, 7363608576), (52, 0, 7363608576), (53, 0, 7363608576),
      (54, 0, 7363608576), (55, 0, 7363608576), (59, 0, 7084687360), (60, 0, 7084687360),
      (61, 0, 7084687360), (62, 0, 7084687360), (63, 0, 7084687360), (64, 0, 7084687360),
      (65, 0, 7095173120), (66, 0, 7095173120), (76, 2, 7080230912), (78, 0, 7080493056),
      (79, 0, 7080493056), (80, 0, 7080493056), (81, 0, 7080493056)],
    [
      (22, 0, 7084687360), (23, 0, 7084687360), (24, 0, 7084687360), (25, 0, 7084687360),
      (26, 0, 7084687360), (27, 0, 7095173120), (28, 0, 7095173120), (29, 0, 7095173120),
      (30, 0, 7095173120), (31, 0, 7095173120), (32, 0, 7095173120), (35, 0, 5120),
      (36, 0, 5120), (42, 0, 7084687360), (43, 0, 7095173120), (44, 0, 7095173120),
      (45, 0, 7095173120), (46, 0, 5120), (47, 0, 5120), (49, 0, 7363608576),
      (50, 0, 7363608576), (51, 0, 7363608576), (52, 0, 7363608576), (53, 0, 7363608576),
      (54, 0, 7363608576), (55, 0, 7363608576), (59, 0, 7084687360), (60, 0, 7084687360),
      (61, 0, 7084687360), (62, 0, 7084687360), (63, 0, 7084687360), (64, 0, 7084687360),
      (65, 0, 7095173120), (66, 0, 7095173120), (77, 2, 7080230912), (78, 0, 7080493056),
      (79, 0, 7080493056), (80, 0, 7080493056), (81, 0, 7080493056)],
    [
      (22, 0, 7084687360), (23, 0, 7084687360), (24, 0, 7084687360), (25, 0, 7084687360),
      (26, 0, 7084687360), (27, 0, 7095173120), (28, 0, 7095173120), (29, 0, 7095173120),
      (30, 0, 7095173120), (31, 0, 7095173120), (32, 0, 7095173120), (35, 0, 5120),
      (36, 0, 5120), (42, 0, 7084687360), (43, 0, 7095173120), (44, 0, 7095173120),
      (45, 0, 7095173120), (46, 0, 5120), (47, 0, 5120), (49, 0, 7363608576),
      (50, 0, 7363608576), (51, 0, 7363608576), (52, 0, 7363608576), (53, 0, 7363608576),
      (54, 0, 7363608576), (55, 0, 7363608576), (59, 0, 7084687360), (60, 0, 7084687360),
      (61, 0, 7084687360), (62, 0, 7084687360), (63, 0, 7084687360), (64, 0, 7084687360),
      (65, 0, 7095173120), (66, 0, 7095173120), (79, 2, 7080493056), (80, 0, 7080493056),
      (81, 0, 7080493056)],
    [(12, 6, 14680065)],
    [(54, 3, 7363608576)],
    [(58, 1, 100663296)],
    [(55, 3, 7363608576), (57, 1, 100663296)],
    [(56, 1, 100663296)],
    [(50, 3, 7363608576)],
    [(43, 3, 7095173120)],
    [(28, 3, 7095173120)],
    [(31, 3, 7095173120), (34, 1, 7363608576), (40, 0, 7363608576)],
    [(60, 3, 7084687360)],
    [(28, 1, 7095173120), (43, 1, 7095173120), (64, 3, 7084687360)],
    [(28, 1, 7095173120), (43, 1, 7095173120), (63, 3, 7084687360)],
    [(68, 3, 637550592), (70, 1, 637583360)],
    [(70, 3, 637583360), (72, 1, 637648896)],
    [(72, 3, 637648896), (74, 1, 637779968)],
    [(74, 3, 637779968), (76, 1, 7080230912), (77, 1, 7080230912)],
    [(76, 3, 7080230912), (79, 1, 7080493056)],
    [(77, 3, 7080230912), (79, 1, 7080493056)],
    [(79, 3, 7080493056)],
    [(55, 4, 7363608576)],
    [
      (22, 0, 6547816448), (23, 0, 6547816448), (24, 0, 6547816448), (25, 0, 6547816448),
      (26, 0, 6547816448), (27, 0, 6558302208), (28, 0, 6558302208), (29, 0, 6558302208),
      (30, 0, 6558302208), (31, 0, 6558302208), (32, 0, 6558302208), (35, 0, 5120),
      (36, 0, 5120), (42, 0, 6547816448), (43, 0, 6558302208), (44, 0, 6558302208),
      (45, 0, 6558302208), (46, 0, 5120), (47, 0, 5120), (48, 0, 100663296),
      (49, 0, 6826737664), (50, 0, 6826737664), (51, 0, 6826737664), (52, 0, 6826737664),
      (53, 0, 6826737664), (54, 0, 6826737664), (55, 0, 6826737664), (57, 2, 100663296),
      (58, 0, 100663296), (59, 0, 6547816448), (60, 0, 6547816448), (61, 0, 6547816448),
      (62, 0, 6547816448), (63, 0, 6547816448), (64, 0, 6547816448), (65, 0, 6558302208),
      (66, 0, 6558302208), (67, 0, 100679680), (68, 0, 100679680), (69, 0, 100712448),
      (70, 0, 100712448), (71, 0, 100777984), (72, 0, 100777984), (73, 0, 100909056),
      (74, 0, 100909056), (75, 0, 6543360000), (76, 0, 6543360000), (77, 0, 6543360000),
      (78, 0, 6543622144), (79, 0, 6543622144), (80, 0, 6543622144), (81, 0, 6543622144)],
    [(57, 3, 100663296)],
    [(0, 1, 1)],
    []]
  first := [
    144708728, 144708728, 144708728, 96, 134222872, 134222872, 134217752, 1218982912, 10485760,
    1208497152, 1208497152, 268435456, 134225920, 5120, 268435456, 5530730368, 2097152,
    1208497152, 1074266112, 134217728, 5530730368, 16780160, 2048, 5530730368, 5530730368,
    1235763072, 1235763072, 16780160, 5530730368, 5530730368, 5530730368, 5530730368,
    5530730368, 5530730368, 5530730368]
  nullable := 4539333755273216
  past := [
    [],
    [(3, 32505953)],
    [(4, 32505953)],
    [(5, 1048577)],
    [(6, 1048577)],
    [(21, 1048577)],
    [(23, 1048577)],
    [(27, 32505953)],
    [(34, 1)],
    [(35, 1)],
    [(36, 1048577)],
    [(37, 1048577)],
    [(38, 7340129)],
    [(39, 32505953)],
    [(20, 2), (3, 32505953)],
    [(20, 4), (4, 32505953)],
    [(24, 8), (5, 1048577)],
    [(24, 16), (6, 1048577)],
    [(37, 32), (21, 1048577)],
    [(37, 64), (23, 1048577)],
    [(22, 256), (34, 1)],
    [(21, 1024), (36, 1048577)],
    [(23, 1024), (36, 1048577)],
    [(21, 6443239424), (37, 7340129)],
    [(23, 6443239424), (37, 7340129)],
    [(10, 576460752303431680)],
    [(12, 576460752303431680)],
    [(46, 8192), (39, 32505953)],
    [(7, 65536), (24, 8), (5, 1048577)],
    [(7, 131072), (24, 16), (6, 1048577)],
    [(35, 1048576), (22, 256), (34, 1)],
    [(37, 2097152), (21, 1024), (36, 1048577)],
    [(37, 4194304), (23, 1024), (36, 1048577)],
    [(38, 8388608), (21, 6443239424), (37, 7340129)],
    [(38, 16777216), (23, 6443239424), (37, 7340129)],
    [(24, 67108864), (12, 576460752303431680)],
    [(28, 1298077309483878907559743741493248)],
    [(44, 134217728), (46, 8192), (39, 32505953)],
    [(47, 618970093429666432421986304)],
    [(25, 268435456), (7, 65536), (24, 8), (5, 1048577)],
    [(26, 536870912), (7, 131072), (24, 16), (6, 1048577)],
    [(7, 34359738368), (24, 67108864), (12, 576460752303431680)],
    [(25, 34359738368), (24, 67108864), (12, 576460752303431680)],
    [(7, 5316917019082161156201682056150777856)],
    [(8, 5316917019082161156201682056150777856)],
    [(9, 5316917019082161156201682056150777856)],
    [(11, 5316917019082161156201682056150777856)],
    [(13, 5316917049256949613784515106677194752)],
    [(19, 5316917049256949613784515106677194752)],
    [(21, 5316917019082161156201682056150777856)],
    [(23, 5316917019082161156201682056150777856)],
    [(24, 5316917019082161156201682056150777856)],
    [(27, 5316917049256949613784515106677194752)],
    [(30, 5316917049256949613784515106677194752)],
    [(32, 5316917014130400999042146558044798976)],
    [(40, 5316917019082161156201682056150777856)],
    [(41, 5316917019082161156201682056150777856)],
    [(42, 5316917019082161156201682056150777856)],
    [(43, 5316917048792722099052497503590023168)],
    [(45, 5316917049256949613784515106677194752)],
    [(48, 68719476736), (28, 1298077309483878907559743741493248)],
    [(49, 5316917019082161156201682056150777856)],
    [(50, 5316917048792722099052497503590023168)],
    [(51, 5316917049256949613784515106677194752)],
    [(52, 5316917049256949613784515106677194752)],
    [(53, 68719476736)],
    [(54, 5316917019082161156201682056150777856)],
    [(55, 5316917019082161156201682056150777856)],
    [(58, 5316917014130400999042146558044798976)],
    [(59, 5316917014130400999060160956554280960)],
    [(60, 5316917019082161156201682056150777856)],
    [(61, 5316911983142081343256709368003952640)],
    [(62, 5316911983142081343256709368003952640)],
    [(63, 5316912022756162600388878164775927808)],
    [(64, 5316912101984325114653215758319878144)],
    [(65, 5316912260440650143181890945407778816)],
    [(66, 5316912577353300200239241319583580160)],
    [(67, 5316914478829200542583343564638388224)],
    [(47, 1298076690513785477893311319506944), (44, 618970093429666432421986304)],
    [(7, 1099511627776), (26, 536870912), (7, 131072), (24, 16), (6, 1048577)],
    [(25, 2199023255552), (7, 34359738368), (24, 67108864), (12, 576460752303431680)],
    [(24, 70368744177664), (11, 5316917019082161156201682056150777856)],
    [(20, 140737488355328), (13, 5316917049256949613784515106677194752)],
    [(42, 562949953421312), (21, 5316917019082161156201682056150777856)],
    [(42, 1125899906842624), (23, 5316917019082161156201682056150777856)],
    [(53, 2251799813685248), (24, 5316917019082161156201682056150777856)],
    [(58, 18014398509481984), (32, 5316917014130400999042146558044798976)],
    [(21, 15576890604618702700457777256464384), (42, 5316917048792722099052497503590023168)],
    [(23, 15576890604618702700457777256464384), (42, 5316917048792722099052497503590023168)],
    [(46, 576460752303423488), (45, 5316917049256949613784515106677194752)],
    [(29, 1152921504606846976), (48, 68719476736), (28, 1298077309483878907559743741493248)],
    [(44, 73786976294838206464), (54, 5316917019082161156201682056150777856)],
    [(22, 77371547603241446534021120), (58, 5316917014130400999060160956554280960)],
    [(21, 1180591620717411303424), (60, 5316917019082161156201682056150777856)],
    [(23, 1180591620717411303424), (60, 5316917019082161156201682056150777856)],
    [(14, 2361183241434822606848), (61, 5316911983142081343256709368003952640)],
    [(15, 20769187434144032880604854962094080), (62, 5316912022756162600388878164775927808)],
    [(16, 41538374868288065761209709924188160), (63, 5316912101984325114653215758319878144)],
    [(17, 83076749736576131522419419848376320), (64, 5316912260440650143181890945407778816)],
    [
      (31, 166153499473152263044838839696752640), (65, 5316912577353300200239241319583580160)],
    [
      (32, 166153499473152263044838839696752640), (65, 5316912577353300200239241319583580160)],
    [
      (18, 996920996838762462541581209533677568), (66, 5316914478829200542583343564638388224)],
    [
      (25, 604462909807314587353088), (7, 1099511627776), (26, 536870912), (7, 131072),
      (24, 16), (6, 1048577)],
    [
      (25, 2417851639229258349412352), (24, 70368744177664),
      (11, 5316917019082161156201682056150777856)],
    [(53, 5316911983142081343254457499470790656)],
    [
      (56, 2417851639229258349412352), (24, 70368744177664),
      (11, 5316917019082161156201682056150777856)],
    [(57, 2417851639229258349412352)],
    [
      (25, 38685626227668133590597632), (53, 2251799813685248),
      (24, 5316917019082161156201682056150777856)],
    [
      (43, 154742504910672534362390528), (21, 15576890604618702700457777256464384),
      (42, 5316917048792722099052497503590023168)],
    [
      (43, 309485009821345068724781056), (23, 15576890604618702700457777256464384),
      (42, 5316917048792722099052497503590023168)],
    [
      (44, 618970019642690137449562112), (46, 576460752303423488),
      (45, 5316917049256949613784515106677194752)],
    [
      (59, 4951760157141521099596496896), (22, 77371547603241446534021120),
      (58, 5316917014130400999060160956554280960)],
    [
      (42, 9903520314283042199192993792), (21, 1180591620717411303424),
      (60, 5316917019082161156201682056150777856)],
    [
      (42, 19807040628566084398385987584), (23, 1180591620717411303424),
      (60, 5316917019082161156201682056150777856)],
    [
      (62, 39614081257132168796771975168), (14, 2361183241434822606848),
      (61, 5316911983142081343256709368003952640)],
    [
      (63, 79228162514264337593543950336), (15, 20769187434144032880604854962094080),
      (62, 5316912022756162600388878164775927808)],
    [
      (64, 158456325028528675187087900672), (16, 41538374868288065761209709924188160),
      (63, 5316912101984325114653215758319878144)],
    [
      (65, 316912650057057350374175801344), (17, 83076749736576131522419419848376320),
      (64, 5316912260440650143181890945407778816)],
    [
      (66, 633825300114114700748351602688), (31, 166153499473152263044838839696752640),
      (65, 5316912577353300200239241319583580160)],
    [
      (66, 1267650600228229401496703205376), (32, 166153499473152263044838839696752640),
      (65, 5316912577353300200239241319583580160)],
    [
      (67, 2535301200456458802993406410752), (18, 996920996838762462541581209533677568),
      (66, 5316914478829200542583343564638388224)],
    [
      (25, 40564819207303340847894502572032), (56, 2417851639229258349412352),
      (24, 70368744177664), (11, 5316917019082161156201682056150777856)],
    [(26, 40564819207303340847894502572032), (56, 2417851639229258349412352)],
    [
      (57, 5316911983139663491615228241121378304), (26, 40564819207303340847894502572032),
      (56, 2417851639229258349412352)],
    [(33, 1)],
    [(0, 21267647932558653966460912964485513216), (33, 1)]]
  weight := [
    17, 17, 17, 17, 17, 17, 17, 17, 17, 17, 17, 17, 17, 17, 17, 17, 17, 17, 17, 17, 17, 17, 17,
    17, 17, 17, 17, 17, 17, 17, 17, 17, 17, 12, 13, 14, 16, 15, 16, 16, 13, 15, 14, 15, 15, 15,
    16, 16, 2, 16, 16, 16, 16, 3, 15, 16, 1, 2, 11, 12, 14, 4, 5, 6, 7, 8, 9, 10]
  bonus := 17
  flags := 5316917049256949613784515106709700705
  eofs := 42535295865117307932921825928971026432

theorem pattern_complete : checkComplete patternTables patternCert = true := by
  decide +kernel

theorem pattern_sound : checkSound patternTables patternCert 69 = true := by
  decide +kernel

end Verif.Parse
