import Verif.Parse.Cert
import Verif.Parse.XPathTables
/-
The certificate for the tables of lib/xpath/parser/xpathparser.c: the LALR(1) items of its states and
what the stack looks like in each.  Found by a script, checked here.
-/
namespace Verif.Parse

def xpathCert : Cert where
  start := 42
  items := [
    [
      (0, 0, 1), (1, 0, 469793793), (2, 0, 469793793), (3, 0, 469793793), (4, 0, 469793793),
      (5, 0, 469793793), (6, 0, 470187009), (7, 0, 470187009), (8, 0, 470187009),
      (9, 0, 470187009), (10, 0, 470187009), (11, 0, 470187009), (14, 0, 320), (15, 0, 320),
      (21, 0, 469793793), (22, 0, 470187009), (23, 0, 470187009), (24, 0, 470187009),
      (25, 0, 320), (26, 0, 320), (27, 0, 1), (28, 0, 472284161), (29, 0, 472284161),
      (30, 0, 472284161), (31, 0, 472284161), (32, 0, 472284161), (33, 0, 472284161),
      (34, 0, 472284161), (38, 0, 469793793), (39, 0, 469793793), (40, 0, 469793793),
      (41, 0, 469793793), (42, 0, 469793793), (43, 0, 469793793), (44, 0, 470187009),
      (45, 0, 470187009), (46, 0, 1025), (47, 0, 1025), (48, 0, 3073), (49, 0, 3073),
      (50, 0, 7169), (51, 0, 7169), (52, 0, 15361), (53, 0, 15361), (54, 0, 402668545),
      (55, 0, 402668545), (56, 0, 402668545), (57, 0, 402684929), (58, 0, 402684929),
      (59, 0, 402684929), (60, 0, 402684929)],
    [(30, 1, 511081473)],
    [(31, 1, 511081473)],
    [(28, 1, 511081473)],
    [(33, 1, 511081473), (34, 1, 511081473)],
    [(14, 1, 320)],
    [(24, 1, 508984321)],
    [
      (6, 0, 508984321), (7, 0, 508984321), (8, 0, 508984321), (9, 0, 508984321),
      (10, 0, 508984321), (11, 0, 508984321), (14, 0, 320), (15, 0, 320), (21, 1, 508591105),
      (22, 0, 508984321), (23, 0, 508984321), (24, 0, 508984321), (25, 0, 320), (26, 0, 320)],
    [
      (3, 1, 508591105), (4, 1, 508591105), (6, 0, 508984321), (7, 0, 508984321),
      (8, 0, 508984321), (9, 0, 508984321), (10, 0, 508984321), (11, 0, 508984321),
      (14, 0, 320), (15, 0, 320), (22, 0, 508984321), (23, 0, 508984321), (24, 0, 508984321),
      (25, 0, 320), (26, 0, 320)],
    [
      (1, 0, 470842368), (2, 0, 470842368), (3, 0, 470842368), (4, 0, 470842368),
      (5, 0, 470842368), (6, 0, 471235584), (7, 0, 471235584), (8, 0, 471235584),
      (9, 0, 471235584), (10, 0, 471235584), (11, 0, 471235584), (14, 0, 320), (15, 0, 320),
      (21, 0, 470842368), (22, 0, 471235584), (23, 0, 471235584), (24, 0, 471235584),
      (25, 0, 320), (26, 0, 320), (27, 0, 1048576), (28, 0, 473332736), (29, 0, 473332736),
      (29, 1, 511081473), (30, 0, 473332736), (31, 0, 473332736), (32, 0, 473332736),
      (33, 0, 473332736), (34, 0, 473332736), (38, 0, 470842368), (39, 0, 470842368),
      (40, 0, 470842368), (41, 0, 470842368), (42, 0, 470842368), (43, 0, 470842368),
      (44, 0, 471235584), (45, 0, 471235584), (46, 0, 1049600), (47, 0, 1049600),
      (48, 0, 1051648), (49, 0, 1051648), (50, 0, 1055744), (51, 0, 1055744), (52, 0, 1063936),
      (53, 0, 1063936), (54, 0, 403717120), (55, 0, 403717120), (56, 0, 403717120),
      (57, 0, 403733504), (58, 0, 403733504), (59, 0, 403733504), (60, 0, 403733504)],
    [(23, 1, 508984321)],
    [(25, 1, 320)],
    [
      (1, 0, 508591105), (2, 0, 508591105), (3, 0, 508591105), (4, 0, 508591105),
      (5, 0, 508591105), (6, 0, 508984321), (7, 0, 508984321), (8, 0, 508984321),
      (9, 0, 508984321), (10, 0, 508984321), (11, 0, 508984321), (14, 0, 320), (15, 0, 320),
      (21, 0, 508591105), (22, 0, 508984321), (23, 0, 508984321), (24, 0, 508984321),
      (25, 0, 320), (26, 0, 320), (28, 0, 511081473), (29, 0, 511081473), (30, 0, 511081473),
      (31, 0, 511081473), (32, 0, 511081473), (33, 0, 511081473), (34, 0, 511081473),
      (38, 0, 508591105), (39, 0, 508591105), (40, 0, 508591105), (41, 0, 508591105),
      (42, 0, 508591105), (43, 0, 508591105), (44, 0, 508984321), (45, 0, 508984321),
      (60, 1, 441482241)],
    [(40, 1, 508591105)],
    [(2, 1, 508591105)],
    [(1, 1, 508591105), (7, 1, 508984321), (22, 1, 508984321)],
    [(6, 1, 508984321)],
    [
      (9, 1, 508984321), (10, 1, 508984321), (16, 0, 511081473), (17, 0, 511081473),
      (18, 0, 511081473)],
    [(5, 1, 508591105)],
    [(8, 1, 508984321)],
    [(11, 1, 508984321)],
    [(15, 1, 320)],
    [
      (12, 0, 511081473), (13, 0, 511081473), (19, 0, 511081473), (44, 1, 508984321),
      (45, 1, 508984321)],
    [(32, 1, 511081473)],
    [(39, 1, 508591105), (59, 1, 441482241)],
    [(38, 1, 508591105)],
    [(41, 1, 508591105), (42, 1, 508591105), (43, 1, 508591105)],
    [(27, 1, 38797313), (47, 1, 38798337)],
    [(46, 1, 38798337), (49, 1, 38800385)],
    [(48, 1, 38800385), (51, 1, 38804481)],
    [(50, 1, 38804481), (53, 1, 38812673)],
    [(52, 1, 38812673), (55, 1, 441465857), (56, 1, 441465857)],
    [(54, 1, 441465857), (58, 1, 441482241)],
    [(57, 1, 441482241)],
    [
      (1, 0, 504396800), (2, 0, 504396800), (3, 0, 504396800), (4, 0, 504396800),
      (5, 0, 504396800), (6, 0, 504790016), (7, 0, 504790016), (8, 0, 504790016),
      (9, 0, 504790016), (10, 0, 504790016), (11, 0, 504790016), (14, 0, 320), (15, 0, 320),
      (21, 0, 504396800), (22, 0, 504790016), (23, 0, 504790016), (24, 0, 504790016),
      (25, 0, 320), (26, 0, 320), (27, 0, 34603008), (28, 0, 506887168), (29, 0, 506887168),
      (30, 0, 506887168), (31, 0, 506887168), (32, 0, 506887168), (33, 0, 506887168),
      (33, 2, 511081473), (34, 0, 506887168), (34, 2, 511081473), (35, 0, 34603008),
      (36, 0, 34603008), (37, 0, 34603008), (38, 0, 504396800), (39, 0, 504396800),
      (40, 0, 504396800), (41, 0, 504396800), (42, 0, 504396800), (43, 0, 504396800),
      (44, 0, 504790016), (45, 0, 504790016), (46, 0, 34604032), (47, 0, 34604032),
      (48, 0, 34606080), (49, 0, 34606080), (50, 0, 34610176), (51, 0, 34610176),
      (52, 0, 34618368), (53, 0, 34618368), (54, 0, 437271552), (55, 0, 437271552),
      (56, 0, 437271552), (57, 0, 437287936), (58, 0, 437287936), (59, 0, 437287936),
      (60, 0, 437287936)],
    [(14, 2, 320)],
    [(7, 1, 508984321), (21, 2, 508591105), (22, 1, 508984321)],
    [(4, 2, 508591105), (7, 1, 508984321), (22, 1, 508984321)],
    [(29, 2, 511081473)],
    [(39, 1, 508591105), (60, 2, 441482241)],
    [
      (9, 0, 508984321), (10, 0, 508984321), (11, 0, 508984321), (14, 0, 320), (15, 0, 320),
      (22, 2, 508984321), (23, 0, 508984321), (24, 0, 508984321), (25, 0, 320), (26, 0, 320)],
    [
      (7, 2, 508984321), (9, 0, 508984321), (10, 0, 508984321), (11, 0, 508984321),
      (14, 0, 320), (15, 0, 320), (23, 0, 508984321), (24, 0, 508984321), (25, 0, 320),
      (26, 0, 320)],
    [(16, 1, 511081473)],
    [(17, 1, 511081473), (18, 1, 511081473)],
    [
      (9, 2, 508984321), (10, 2, 508984321), (12, 0, 511081473), (13, 0, 511081473),
      (19, 0, 511081473)],
    [
      (1, 0, 473988096), (2, 0, 473988096), (3, 0, 473988096), (4, 0, 473988096),
      (5, 0, 473988096), (6, 0, 474381312), (7, 0, 474381312), (8, 0, 474381312),
      (9, 0, 474381312), (10, 0, 474381312), (11, 0, 474381312), (14, 0, 320), (15, 0, 320),
      (19, 1, 511081473), (20, 0, 4194304), (21, 0, 473988096), (22, 0, 474381312),
      (23, 0, 474381312), (24, 0, 474381312), (25, 0, 320), (26, 0, 320), (27, 0, 4194304),
      (28, 0, 476478464), (29, 0, 476478464), (30, 0, 476478464), (31, 0, 476478464),
      (32, 0, 476478464), (33, 0, 476478464), (34, 0, 476478464), (38, 0, 473988096),
      (39, 0, 473988096), (40, 0, 473988096), (41, 0, 473988096), (42, 0, 473988096),
      (43, 0, 473988096), (44, 0, 474381312), (45, 0, 474381312), (46, 0, 4195328),
      (47, 0, 4195328), (48, 0, 4197376), (49, 0, 4197376), (50, 0, 4201472), (51, 0, 4201472),
      (52, 0, 4209664), (53, 0, 4209664), (54, 0, 406862848), (55, 0, 406862848),
      (56, 0, 406862848), (57, 0, 406879232), (58, 0, 406879232), (59, 0, 406879232),
      (60, 0, 406879232)],
    [(13, 1, 511081473), (19, 0, 511081473), (45, 2, 508984321)],
    [(12, 1, 511081473)],
    [
      (1, 0, 508591105), (2, 0, 508591105), (3, 0, 508591105), (4, 0, 508591105),
      (5, 0, 508591105), (6, 0, 508984321), (7, 0, 508984321), (8, 0, 508984321),
      (9, 0, 508984321), (10, 0, 508984321), (11, 0, 508984321), (14, 0, 320), (15, 0, 320),
      (21, 0, 508591105), (22, 0, 508984321), (23, 0, 508984321), (24, 0, 508984321),
      (25, 0, 320), (26, 0, 320), (28, 0, 511081473), (29, 0, 511081473), (30, 0, 511081473),
      (31, 0, 511081473), (32, 0, 511081473), (33, 0, 511081473), (34, 0, 511081473),
      (39, 2, 508591105), (40, 0, 508591105), (41, 0, 508591105), (42, 0, 508591105),
      (43, 0, 508591105), (44, 0, 508984321), (45, 0, 508984321)],
    [
      (6, 0, 508984321), (7, 0, 508984321), (8, 0, 508984321), (9, 0, 508984321),
      (10, 0, 508984321), (11, 0, 508984321), (14, 0, 320), (15, 0, 320), (22, 0, 508984321),
      (23, 0, 508984321), (24, 0, 508984321), (25, 0, 320), (26, 0, 320), (43, 2, 508591105)],
    [
      (6, 0, 508984321), (7, 0, 508984321), (8, 0, 508984321), (9, 0, 508984321),
      (10, 0, 508984321), (11, 0, 508984321), (14, 0, 320), (15, 0, 320), (22, 0, 508984321),
      (23, 0, 508984321), (24, 0, 508984321), (25, 0, 320), (26, 0, 320), (42, 2, 508591105)],
    [
      (1, 0, 508591105), (2, 0, 508591105), (3, 0, 508591105), (4, 0, 508591105),
      (5, 0, 508591105), (6, 0, 508984321), (7, 0, 508984321), (8, 0, 508984321),
      (9, 0, 508984321), (10, 0, 508984321), (11, 0, 508984321), (14, 0, 320), (15, 0, 320),
      (21, 0, 508591105), (22, 0, 508984321), (23, 0, 508984321), (24, 0, 508984321),
      (25, 0, 320), (26, 0, 320), (28, 0, 511081473), (29, 0, 511081473), (30, 0, 511081473),
      (31, 0, 511081473), (32, 0, 511081473), (33, 0, 511081473), (34, 0, 511081473),
      (38, 0, 508591105), (39, 0, 508591105), (40, 0, 508591105), (41, 0, 508591105),
      (42, 0, 508591105), (43, 0, 508591105), (44, 0, 508984321), (45, 0, 508984321),
      (47, 2, 38798337), (48, 0, 38800385), (49, 0, 38800385), (50, 0, 38804481),
      (51, 0, 38804481), (52, 0, 38812673), (53, 0, 38812673), (54, 0, 441465857),
      (55, 0, 441465857), (56, 0, 441465857), (57, 0, 441482241), (58, 0, 441482241),
      (59, 0, 441482241), (60, 0, 441482241)],
    [
      (1, 0, 508591105), (2, 0, 508591105), (3, 0, 508591105), (4, 0, 508591105),
      (5, 0, 508591105), (6, 0, 508984321), (7, 0, 508984321), (8, 0, 508984321),
      (9, 0, 508984321), (10, 0, 508984321), (11, 0, 508984321), (14, 0, 320), (15, 0, 320),
      (21, 0, 508591105), (22, 0, 508984321), (23, 0, 508984321), (24, 0, 508984321),
      (25, 0, 320), (26, 0, 320), (28, 0, 511081473), (29, 0, 511081473), (30, 0, 511081473),
      (31, 0, 511081473), (32, 0, 511081473), (33, 0, 511081473), (34, 0, 511081473),
      (38, 0, 508591105), (39, 0, 508591105), (40, 0, 508591105), (41, 0, 508591105),
      (42, 0, 508591105), (43, 0, 508591105), (44, 0, 508984321), (45, 0, 508984321),
      (49, 2, 38800385), (50, 0, 38804481), (51, 0, 38804481), (52, 0, 38812673),
      (53, 0, 38812673), (54, 0, 441465857), (55, 0, 441465857), (56, 0, 441465857),
      (57, 0, 441482241), (58, 0, 441482241), (59, 0, 441482241), (60, 0, 441482241)],
    [
      (1, 0, 508591105), (2, 0, 508591105), (3, 0, 508591105), (4, 0, 508591105),
      (5, 0, 508591105), (6, 0, 508984321), (7, 0, 508984321), (8, 0, 508984321),
      (9, 0, 508984321), (10, 0, 508984321), (11, 0, 508984321), (14, 0, 320), (15, 0, 320),
      (21, 0, 508591105), (22, 0, 508984321), (23, 0, 508984321), (24, 0, 508984321),
      (25, 0, 320), (26, 0, 320), (28, 0, 511081473), (29, 0, 511081473), (30, 0, 511081473),
      (31, 0, 511081473), (32, 0, 511081473), (33, 0, 511081473), (34, 0, 511081473),
      (38, 0, 508591105), (39, 0, 508591105), (40, 0, 508591105), (41, 0, 508591105),
      (42, 0, 508591105), (43, 0, 508591105), (44, 0, 508984321), (45, 0, 508984321),
      (51, 2, 38804481), (52, 0, 38812673), (53, 0, 38812673), (54, 0, 441465857),
      (55, 0, 441465857), (56, 0, 441465857), (57, 0, 441482241), (58, 0, 441482241),
      (59, 0, 441482241), (60, 0, 441482241)],
    [
      (1, 0, 508591105), (2, 0, 508591105), (3, 0, 508591105), (4, 0, 508591105),
      (5, 0, 508591105), (6, 0, 508984321), (7, 0, 508984321), (8, 0, 508984321),
      (9, 0, 508984321), (10, 0, 508984321), (11, 0, 508984321), (14, 0, 320), (15, 0, 320),
      (21, 0, 508591105), (22, 0, 508984321), (23, 0, 508984321), (24, 0, 508984321),
      (25, 0, 320), (26, 0, 320), (28, 0, 511081473), (29, 0, 511081473), (30, 0, 511081473),
      (31, 0, 511081473), (32, 0, 511081473), (33, 0, 511081473), (34, 0, 511081473),
      (38, 0, 508591105), (39, 0, 508591105), (40, 0, 508591105), (41, 0, 508591105),
      (42, 0, 508591105), (43, 0, 508591105), (44, 0, 508984321), (45, 0, 508984321),
      (53, 2, 38812673), (54, 0, 441465857), (55, 0, 441465857), (56, 0, 441465857),
      (57, 0, 441482241), (58, 0, 441482241), (59, 0, 441482241), (60, 0, 441482241)],
    [
      (1, 0, 508591105), (2, 0, 508591105), (3, 0, 508591105), (4, 0, 508591105),
      (5, 0, 508591105), (6, 0, 508984321), (7, 0, 508984321), (8, 0, 508984321),
      (9, 0, 508984321), (10, 0, 508984321), (11, 0, 508984321), (14, 0, 320), (15, 0, 320),
      (21, 0, 508591105), (22, 0, 508984321), (23, 0, 508984321), (24, 0, 508984321),
      (25, 0, 320), (26, 0, 320), (28, 0, 511081473), (29, 0, 511081473), (30, 0, 511081473),
      (31, 0, 511081473), (32, 0, 511081473), (33, 0, 511081473), (34, 0, 511081473),
      (38, 0, 508591105), (39, 0, 508591105), (40, 0, 508591105), (41, 0, 508591105),
      (42, 0, 508591105), (43, 0, 508591105), (44, 0, 508984321), (45, 0, 508984321),
      (55, 2, 441465857), (57, 0, 441482241), (58, 0, 441482241), (59, 0, 441482241),
      (60, 0, 441482241)],
    [
      (1, 0, 508591105), (2, 0, 508591105), (3, 0, 508591105), (4, 0, 508591105),
      (5, 0, 508591105), (6, 0, 508984321), (7, 0, 508984321), (8, 0, 508984321),
      (9, 0, 508984321), (10, 0, 508984321), (11, 0, 508984321), (14, 0, 320), (15, 0, 320),
      (21, 0, 508591105), (22, 0, 508984321), (23, 0, 508984321), (24, 0, 508984321),
      (25, 0, 320), (26, 0, 320), (28, 0, 511081473), (29, 0, 511081473), (30, 0, 511081473),
      (31, 0, 511081473), (32, 0, 511081473), (33, 0, 511081473), (34, 0, 511081473),
      (38, 0, 508591105), (39, 0, 508591105), (40, 0, 508591105), (41, 0, 508591105),
      (42, 0, 508591105), (43, 0, 508591105), (44, 0, 508984321), (45, 0, 508984321),
      (56, 2, 441465857), (57, 0, 441482241), (58, 0, 441482241), (59, 0, 441482241),
      (60, 0, 441482241)],
    [
      (1, 0, 508591105), (2, 0, 508591105), (3, 0, 508591105), (4, 0, 508591105),
      (5, 0, 508591105), (6, 0, 508984321), (7, 0, 508984321), (8, 0, 508984321),
      (9, 0, 508984321), (10, 0, 508984321), (11, 0, 508984321), (14, 0, 320), (15, 0, 320),
      (21, 0, 508591105), (22, 0, 508984321), (23, 0, 508984321), (24, 0, 508984321),
      (25, 0, 320), (26, 0, 320), (28, 0, 511081473), (29, 0, 511081473), (30, 0, 511081473),
      (31, 0, 511081473), (32, 0, 511081473), (33, 0, 511081473), (34, 0, 511081473),
      (38, 0, 508591105), (39, 0, 508591105), (40, 0, 508591105), (41, 0, 508591105),
      (42, 0, 508591105), (43, 0, 508591105), (44, 0, 508984321), (45, 0, 508984321),
      (58, 2, 441482241), (59, 0, 441482241), (60, 0, 441482241)],
    [(33, 3, 511081473)],
    [(37, 1, 34603008)],
    [(34, 3, 511081473), (36, 1, 34603008)],
    [(35, 1, 34603008)],
    [(29, 3, 511081473)],
    [(22, 3, 508984321)],
    [(7, 3, 508984321)],
    [(17, 2, 511081473), (18, 2, 511081473)],
    [(10, 3, 508984321), (13, 1, 511081473), (19, 0, 511081473)],
    [(19, 2, 511081473)],
    [(20, 1, 4194304)],
    [(13, 2, 511081473)],
    [(39, 3, 508591105)],
    [(7, 1, 508984321), (22, 1, 508984321), (43, 3, 508591105)],
    [(7, 1, 508984321), (22, 1, 508984321), (42, 3, 508591105)],
    [(47, 3, 38798337), (49, 1, 38800385)],
    [(49, 3, 38800385), (51, 1, 38804481)],
    [(51, 3, 38804481), (53, 1, 38812673)],
    [(53, 3, 38812673), (55, 1, 441465857), (56, 1, 441465857)],
    [(55, 3, 441465857), (58, 1, 441482241)],
    [(56, 3, 441465857), (58, 1, 441482241)],
    [(58, 3, 441482241)],
    [(34, 4, 511081473)],
    [
      (1, 0, 504396800), (2, 0, 504396800), (3, 0, 504396800), (4, 0, 504396800),
      (5, 0, 504396800), (6, 0, 504790016), (7, 0, 504790016), (8, 0, 504790016),
      (9, 0, 504790016), (10, 0, 504790016), (11, 0, 504790016), (14, 0, 320), (15, 0, 320),
      (21, 0, 504396800), (22, 0, 504790016), (23, 0, 504790016), (24, 0, 504790016),
      (25, 0, 320), (26, 0, 320), (27, 0, 34603008), (28, 0, 506887168), (29, 0, 506887168),
      (30, 0, 506887168), (31, 0, 506887168), (32, 0, 506887168), (33, 0, 506887168),
      (34, 0, 506887168), (36, 2, 34603008), (37, 0, 34603008), (38, 0, 504396800),
      (39, 0, 504396800), (40, 0, 504396800), (41, 0, 504396800), (42, 0, 504396800),
      (43, 0, 504396800), (44, 0, 504790016), (45, 0, 504790016), (46, 0, 34604032),
      (47, 0, 34604032), (48, 0, 34606080), (49, 0, 34606080), (50, 0, 34610176),
      (51, 0, 34610176), (52, 0, 34618368), (53, 0, 34618368), (54, 0, 437271552),
      (55, 0, 437271552), (56, 0, 437271552), (57, 0, 437287936), (58, 0, 437287936),
      (59, 0, 437287936), (60, 0, 437287936)],
    [(18, 3, 511081473)],
    [(17, 3, 511081473)],
    [(19, 3, 511081473)],
    [(36, 3, 34603008)],
    [(18, 4, 511081473)],
    [(0, 1, 1)],
    []]
  first := [
    25592640, 393216, 25199424, 25199424, 2097152, 16777728, 320, 2097152, 294552568, 131072,
    25199424, 8421376, 16777216, 294552568, 524472, 128, 294552568, 294552568, 26117112,
    26117112, 524472, 294552568, 294552568, 294552568, 294552568, 294552568, 294552568,
    294552568]
  nullable := 2216203124736
  past := [
    [],
    [(3, 2417851925524511216112129)],
    [(4, 2417851925524511216112129)],
    [(5, 2417851925524511216112129)],
    [(7, 2417851925524511216112129)],
    [(9, 2417851927216659611259777)],
    [(15, 2417851927216659611259777)],
    [(17, 2417851925524511216112129)],
    [(18, 2417851925524511216112129)],
    [(19, 2417851925524511216112129)],
    [(23, 2417851927216659611259777)],
    [(24, 2417851927216659611259777)],
    [(28, 2417851925243036239397377)],
    [(29, 2417851925524511216112129)],
    [(30, 2417851925524511216112129)],
    [(31, 2417851925524511216112129)],
    [(32, 2417851927213361076376449)],
    [(34, 2417851927216659611259777)],
    [(38, 2417851925524511216112129)],
    [(39, 2417851927213361076376449)],
    [(40, 2417851927216659611259777)],
    [(41, 2417851927216659611259777)],
    [(43, 2417851925524511216112129)],
    [(44, 2417851925524511216112129)],
    [(47, 2417851925243036239397377)],
    [(48, 2417851925243036239401473)],
    [(49, 2417851925524511216112129)],
    [(50, 2417851639264459901370881)],
    [(51, 2417851639264459901370881)],
    [(52, 2417851641516259715056129)],
    [(53, 2417851646019859342426625)],
    [(54, 2417851655027058597167617)],
    [(55, 2417851673041457106649601)],
    [(56, 2417851781127848163541505)],
    [(19, 16), (7, 2417851925524511216112129)],
    [(16, 32), (9, 2417851927216659611259777)],
    [(31, 128), (17, 2417851925524511216112129)],
    [(31, 256), (18, 2417851925524511216112129)],
    [(42, 512), (19, 2417851925524511216112129)],
    [(47, 4096), (28, 2417851925243036239397377)],
    [(17, 7083549724510626283520), (31, 2417851927213361076376449)],
    [(18, 7083549724510626283520), (31, 2417851927213361076376449)],
    [(6, 131072)],
    [(8, 131072)],
    [(35, 131072), (34, 2417851927216659611259777)],
    [(21, 73787064255772622848)],
    [(33, 4194304), (43, 2417851925524511216112129)],
    [(36, 17592190238720)],
    [(26, 549772591104), (47, 2417851925243036239401473)],
    [(17, 67108864), (49, 2417851925524511216112129)],
    [(18, 67108864), (49, 2417851925524511216112129)],
    [(10, 134217728), (50, 2417851639264459901370881)],
    [(11, 9444732965739558862848), (51, 2417851641516259715056129)],
    [(12, 18889465931479117725696), (52, 2417851646019859342426625)],
    [(13, 37778931862958235451392), (53, 2417851655027058597167617)],
    [(27, 75557863725916470902784), (54, 2417851673041457106649601)],
    [(28, 75557863725916470902784), (54, 2417851673041457106649601)],
    [(14, 453347182355490235482112), (55, 2417851781127848163541505)],
    [(20, 17179869184), (19, 16), (7, 2417851925524511216112129)],
    [(42, 2417851639229275529281536)],
    [(45, 17179869184), (19, 16), (7, 2417851925524511216112129)],
    [(46, 17179869184)],
    [(20, 274877906944), (42, 512), (19, 2417851925524511216112129)],
    [(32, 1099511627776), (17, 7083549724510626283520), (31, 2417851927213361076376449)],
    [(32, 2199023255552), (18, 7083549724510626283520), (31, 2417851927213361076376449)],
    [(19, 8796093022208), (8, 131072)],
    [(33, 17592186044416), (35, 131072), (34, 2417851927216659611259777)],
    [(37, 35184372088832), (21, 73787064255772622848)],
    [(42, 35184372088832)],
    [(36, 73787046663582384128), (33, 17592190238720)],
    [(48, 281474976710656), (26, 549772591104), (47, 2417851925243036239401473)],
    [(31, 562949953421312), (17, 67108864), (49, 2417851925524511216112129)],
    [(31, 1125899906842624), (18, 67108864), (49, 2417851925524511216112129)],
    [(51, 2251799813685248), (10, 134217728), (50, 2417851639264459901370881)],
    [(52, 4503599627370496), (11, 9444732965739558862848), (51, 2417851641516259715056129)],
    [(53, 9007199254740992), (12, 18889465931479117725696), (52, 2417851646019859342426625)],
    [
      (54, 18014398509481984), (13, 37778931862958235451392), (53, 2417851655027058597167617)],
    [
      (55, 36028797018963968), (27, 75557863725916470902784), (54, 2417851673041457106649601)],
    [
      (55, 72057594037927936), (28, 75557863725916470902784), (54, 2417851673041457106649601)],
    [
      (56, 144115188075855872), (14, 453347182355490235482112), (55, 2417851781127848163541505)],
    [(20, 1152921504606846976), (45, 17179869184), (19, 16), (7, 2417851925524511216112129)],
    [(25, 1152921504606846976), (45, 17179869184)],
    [(3, 36893488147419103232), (19, 8796093022208), (8, 131072)],
    [(20, 36893488147419103232), (19, 8796093022208), (8, 131072)],
    [(22, 147573952589676412928), (37, 35184372088832), (21, 73787064255772622848)],
    [(46, 2417851639229258349412352), (25, 1152921504606846976), (45, 17179869184)],
    [
      (20, 4835703278458516698824704), (3, 36893488147419103232), (19, 8796093022208),
      (8, 131072)],
    [(42, 1)],
    [(0, 154742504910672534362390528), (42, 1)]]
  weight := [
    17, 17, 17, 17, 17, 17, 17, 17, 17, 17, 17, 17, 17, 17, 17, 17, 17, 17, 17, 17, 17, 17, 17,
    17, 17, 17, 17, 17, 17, 13, 15, 14, 15, 15, 15, 16, 16, 2, 16, 16, 16, 16, 3, 15, 16, 1, 2,
    11, 12, 14, 4, 5, 6, 7, 8, 9, 10]
  bonus := 17
  flags := 2417851927216659611259777
  eofs := 309485009821345068724781056

theorem xpath_complete : checkComplete xpathTables xpathCert = true := by
  decide +kernel

theorem xpath_sound : checkSound xpathTables xpathCert 58 = true := by
  decide +kernel

end Verif.Parse
