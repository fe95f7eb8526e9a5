import Verif.Parse.Cert
import Verif.Parse.AvtTables
/-
The certificate for the tables of lib/xslt/expressions/avt.c: the LALR(1) items of its states and
what the stack looks like in each.  Found by a script, checked here.
-/
namespace Verif.Parse

def avtCert : Cert where
  start := 33
  items := [
    [(0, 0, 1), (1, 0, 1), (2, 0, 1835009), (3, 0, 1835009), (4, 0, 1835009)],
    [
      (1, 1, 1), (3, 1, 1835009), (4, 1, 1835009), (5, 0, 1835009), (6, 0, 1835009),
      (7, 0, 1835009)],
    [(5, 1, 1835009)],
    [(6, 1, 1835009)],
    [
      (7, 1, 1835009), (8, 0, 7518321664), (9, 0, 7518321664), (10, 0, 7518321664),
      (11, 0, 7518321664), (12, 0, 7518321664), (13, 0, 7522647040), (14, 0, 7522647040),
      (15, 0, 7522647040), (16, 0, 7522647040), (17, 0, 7522647040), (18, 0, 7522647040),
      (21, 0, 320), (22, 0, 320), (28, 0, 7518321664), (29, 0, 7522647040),
      (30, 0, 7522647040), (31, 0, 7522647040), (32, 0, 320), (33, 0, 320), (34, 0, 2097152),
      (35, 0, 7556201472), (36, 0, 7556201472), (37, 0, 7556201472), (38, 0, 7556201472),
      (39, 0, 7556201472), (40, 0, 7556201472), (41, 0, 7556201472), (45, 0, 7518321664),
      (46, 0, 7518321664), (47, 0, 7518321664), (48, 0, 7518321664), (49, 0, 7518321664),
      (50, 0, 7518321664), (51, 0, 7522647040), (52, 0, 7522647040), (53, 0, 2098176),
      (54, 0, 2098176), (55, 0, 2100224), (56, 0, 2100224), (57, 0, 2104320), (58, 0, 2104320),
      (59, 0, 2112512), (60, 0, 2112512), (61, 0, 6444563456), (62, 0, 6444563456),
      (63, 0, 6444563456), (64, 0, 6444579840), (65, 0, 6444579840), (66, 0, 6444579840),
      (67, 0, 6444579840)],
    [(3, 2, 1835009)],
    [(4, 2, 1835009)],
    [(37, 1, 8176958464)],
    [(38, 1, 8176958464)],
    [(35, 1, 8176958464)],
    [(40, 1, 8176958464), (41, 1, 8176958464)],
    [(21, 1, 320)],
    [(31, 1, 8143404032)],
    [
      (13, 0, 8143404032), (14, 0, 8143404032), (15, 0, 8143404032), (16, 0, 8143404032),
      (17, 0, 8143404032), (18, 0, 8143404032), (21, 0, 320), (22, 0, 320),
      (28, 1, 8139078656), (29, 0, 8143404032), (30, 0, 8143404032), (31, 0, 8143404032),
      (32, 0, 320), (33, 0, 320)],
    [
      (10, 1, 8139078656), (11, 1, 8139078656), (13, 0, 8143404032), (14, 0, 8143404032),
      (15, 0, 8143404032), (16, 0, 8143404032), (17, 0, 8143404032), (18, 0, 8143404032),
      (21, 0, 320), (22, 0, 320), (29, 0, 8143404032), (30, 0, 8143404032),
      (31, 0, 8143404032), (32, 0, 320), (33, 0, 320)],
    [
      (8, 0, 7533001728), (9, 0, 7533001728), (10, 0, 7533001728), (11, 0, 7533001728),
      (12, 0, 7533001728), (13, 0, 7537327104), (14, 0, 7537327104), (15, 0, 7537327104),
      (16, 0, 7537327104), (17, 0, 7537327104), (18, 0, 7537327104), (21, 0, 320),
      (22, 0, 320), (28, 0, 7533001728), (29, 0, 7537327104), (30, 0, 7537327104),
      (31, 0, 7537327104), (32, 0, 320), (33, 0, 320), (34, 0, 16777216), (35, 0, 7570881536),
      (36, 0, 7570881536), (36, 1, 8176958464), (37, 0, 7570881536), (38, 0, 7570881536),
      (39, 0, 7570881536), (40, 0, 7570881536), (41, 0, 7570881536), (45, 0, 7533001728),
      (46, 0, 7533001728), (47, 0, 7533001728), (48, 0, 7533001728), (49, 0, 7533001728),
      (50, 0, 7533001728), (51, 0, 7537327104), (52, 0, 7537327104), (53, 0, 16778240),
      (54, 0, 16778240), (55, 0, 16780288), (56, 0, 16780288), (57, 0, 16784384),
      (58, 0, 16784384), (59, 0, 16792576), (60, 0, 16792576), (61, 0, 6459243520),
      (62, 0, 6459243520), (63, 0, 6459243520), (64, 0, 6459259904), (65, 0, 6459259904),
      (66, 0, 6459259904), (67, 0, 6459259904)],
    [(30, 1, 8143404032)],
    [(32, 1, 320)],
    [
      (8, 0, 8139078656), (9, 0, 8139078656), (10, 0, 8139078656), (11, 0, 8139078656),
      (12, 0, 8139078656), (13, 0, 8143404032), (14, 0, 8143404032), (15, 0, 8143404032),
      (16, 0, 8143404032), (17, 0, 8143404032), (18, 0, 8143404032), (21, 0, 320),
      (22, 0, 320), (28, 0, 8139078656), (29, 0, 8143404032), (30, 0, 8143404032),
      (31, 0, 8143404032), (32, 0, 320), (33, 0, 320), (35, 0, 8176958464),
      (36, 0, 8176958464), (37, 0, 8176958464), (38, 0, 8176958464), (39, 0, 8176958464),
      (40, 0, 8176958464), (41, 0, 8176958464), (45, 0, 8139078656), (46, 0, 8139078656),
      (47, 0, 8139078656), (48, 0, 8139078656), (49, 0, 8139078656), (50, 0, 8139078656),
      (51, 0, 8143404032), (52, 0, 8143404032), (67, 1, 7065336832)],
    [(47, 1, 8139078656)],
    [(9, 1, 8139078656)],
    [(8, 1, 8139078656), (14, 1, 8143404032), (29, 1, 8143404032)],
    [(13, 1, 8143404032)],
    [
      (16, 1, 8143404032), (17, 1, 8143404032), (23, 0, 8176958464), (24, 0, 8176958464),
      (25, 0, 8176958464)],
    [(12, 1, 8139078656)],
    [(15, 1, 8143404032)],
    [(18, 1, 8143404032)],
    [(22, 1, 320)],
    [(7, 2, 1835009)],
    [
      (19, 0, 8176958464), (20, 0, 8176958464), (26, 0, 8176958464), (51, 1, 8143404032),
      (52, 1, 8143404032)],
    [(39, 1, 8176958464)],
    [(46, 1, 8139078656), (66, 1, 7065336832)],
    [(45, 1, 8139078656)],
    [(48, 1, 8139078656), (49, 1, 8139078656), (50, 1, 8139078656)],
    [(34, 1, 622854144), (54, 1, 622855168)],
    [(53, 1, 622855168), (56, 1, 622857216)],
    [(55, 1, 622857216), (58, 1, 622861312)],
    [(57, 1, 622861312), (60, 1, 622869504)],
    [(59, 1, 622869504), (62, 1, 7065320448), (63, 1, 7065320448)],
    [(61, 1, 7065320448), (65, 1, 7065336832)],
    [(64, 1, 7065336832)],
    [
      (8, 0, 8069872640), (9, 0, 8069872640), (10, 0, 8069872640), (11, 0, 8069872640),
      (12, 0, 8069872640), (13, 0, 8074198016), (14, 0, 8074198016), (15, 0, 8074198016),
      (16, 0, 8074198016), (17, 0, 8074198016), (18, 0, 8074198016), (21, 0, 320),
      (22, 0, 320), (28, 0, 8069872640), (29, 0, 8074198016), (30, 0, 8074198016),
      (31, 0, 8074198016), (32, 0, 320), (33, 0, 320), (34, 0, 553648128), (35, 0, 8107752448),
      (36, 0, 8107752448), (37, 0, 8107752448), (38, 0, 8107752448), (39, 0, 8107752448),
      (40, 0, 8107752448), (40, 2, 8176958464), (41, 0, 8107752448), (41, 2, 8176958464),
      (42, 0, 553648128), (43, 0, 553648128), (44, 0, 553648128), (45, 0, 8069872640),
      (46, 0, 8069872640), (47, 0, 8069872640), (48, 0, 8069872640), (49, 0, 8069872640),
      (50, 0, 8069872640), (51, 0, 8074198016), (52, 0, 8074198016), (53, 0, 553649152),
      (54, 0, 553649152), (55, 0, 553651200), (56, 0, 553651200), (57, 0, 553655296),
      (58, 0, 553655296), (59, 0, 553663488), (60, 0, 553663488), (61, 0, 6996114432),
      (62, 0, 6996114432), (63, 0, 6996114432), (64, 0, 6996130816), (65, 0, 6996130816),
      (66, 0, 6996130816), (67, 0, 6996130816)],
    [(21, 2, 320)],
    [(14, 1, 8143404032), (28, 2, 8139078656), (29, 1, 8143404032)],
    [(11, 2, 8139078656), (14, 1, 8143404032), (29, 1, 8143404032)],
    [(36, 2, 8176958464)],
    [(46, 1, 8139078656), (67, 2, 7065336832)],
    [
      (16, 0, 8143404032), (17, 0, 8143404032), (18, 0, 8143404032), (21, 0, 320),
      (22, 0, 320), (29, 2, 8143404032), (30, 0, 8143404032), (31, 0, 8143404032),
      (32, 0, 320), (33, 0, 320)],
    [
      (14, 2, 8143404032), (16, 0, 8143404032), (17, 0, 8143404032), (18, 0, 8143404032),
      (21, 0, 320), (22, 0, 320), (30, 0, 8143404032), (31, 0, 8143404032), (32, 0, 320),
      (33, 0, 320)],
    [(23, 1, 8176958464)],
    [(24, 1, 8176958464), (25, 1, 8176958464)],
    [
      (16, 2, 8143404032), (17, 2, 8143404032), (19, 0, 8176958464), (20, 0, 8176958464),
      (26, 0, 8176958464)],
    [(7, 3, 1835009)],
    [
      (8, 0, 7583333376), (9, 0, 7583333376), (10, 0, 7583333376), (11, 0, 7583333376),
      (12, 0, 7583333376), (13, 0, 7587658752), (14, 0, 7587658752), (15, 0, 7587658752),
      (16, 0, 7587658752), (17, 0, 7587658752), (18, 0, 7587658752), (21, 0, 320),
      (22, 0, 320), (26, 1, 8176958464), (27, 0, 67108864), (28, 0, 7583333376),
      (29, 0, 7587658752), (30, 0, 7587658752), (31, 0, 7587658752), (32, 0, 320),
      (33, 0, 320), (34, 0, 67108864), (35, 0, 7621213184), (36, 0, 7621213184),
      (37, 0, 7621213184), (38, 0, 7621213184), (39, 0, 7621213184), (40, 0, 7621213184),
      (41, 0, 7621213184), (45, 0, 7583333376), (46, 0, 7583333376), (47, 0, 7583333376),
      (48, 0, 7583333376), (49, 0, 7583333376), (50, 0, 7583333376), (51, 0, 7587658752),
      (52, 0, 7587658752), (53, 0, 67109888), (54, 0, 67109888), (55, 0, 67111936),
      (56, 0, 67111936), (57, 0, 67116032), (58, 0, 67116032), (59, 0, 67124224),
      (60, 0, 67124224), (61, 0, 6509575168), (62, 0, 6509575168), (63, 0, 6509575168),
      (64, 0, 6509591552), (65, 0, 6509591552), (66, 0, 6509591552), (67, 0, 6509591552)],
    [(20, 1, 8176958464), (26, 0, 8176958464), (52, 2, 8143404032)],
    [(19, 1, 8176958464)],
    [
      (8, 0, 8139078656), (9, 0, 8139078656), (10, 0, 8139078656), (11, 0, 8139078656),
      (12, 0, 8139078656), (13, 0, 8143404032), (14, 0, 8143404032), (15, 0, 8143404032),
      (16, 0, 8143404032), (17, 0, 8143404032), (18, 0, 8143404032), (21, 0, 320),
      (22, 0, 320), (28, 0, 8139078656), (29, 0, 8143404032), (30, 0, 8143404032),
      (31, 0, 8143404032), (32, 0, 320), (33, 0, 320), (35, 0, 8176958464),
      (36, 0, 8176958464), (37, 0, 8176958464), (38, 0, 8176958464), (39, 0, 8176958464),
      (40, 0, 8176958464), (41, 0, 8176958464), (46, 2, 8139078656), (47, 0, 8139078656),
      (48, 0, 8139078656), (49, 0, 8139078656), (50, 0, 8139078656), (51, 0, 8143404032),
      (52, 0, 8143404032)],
    [
      (13, 0, 8143404032), (14, 0, 8143404032), (15, 0, 8143404032), (16, 0, 8143404032),
      (17, 0, 8143404032), (18, 0, 8143404032), (21, 0, 320), (22, 0, 320),
      (29, 0, 8143404032), (30, 0, 8143404032), (31, 0, 8143404032), (32, 0, 320),
      (33, 0, 320), (50, 2, 8139078656)],
    [
      (13, 0, 8143404032), (14, 0, 8143404032), (15, 0, 8143404032), (16, 0, 8143404032),
      (17, 0, 8143404032), (18, 0, 8143404032), (21, 0, 320), (22, 0, 320),
      (29, 0, 8143404032), (30, 0, 8143404032), (31, 0, 8143404032), (32, 0, 320),
      (33, 0, 320), (49, 2, 8139078656)],
    [
      (8, 0, 8139078656), (9, 0, 8139078656), (10, 0, 8139078656), (11, 0, 8139078656),
      (12, 0, 8139078656), (13, 0, 8143404032), (14, 0, 8143404032), (15, 0, 8143404032),
      (16, 0, 8143404032), (17, 0, 8143404032), (18, 0, 8143404032), (21, 0, 320),
      (22, 0, 320), (28, 0, 8139078656), (29, 0, 8143404032), (30, 0, 8143404032),
      (31, 0, 8143404032), (32, 0, 320), (33, 0, 320), (35, 0, 8176958464),
      (36, 0, 8176958464), (37, 0, 8176958464), (38, 0, 8176958464), (39, 0, 8176958464),
      (40, 0, 8176958464), (41, 0, 8176958464), (45, 0, 8139078656), (46, 0, 8139078656),
      (47, 0, 8139078656), (48, 0, 8139078656), (49, 0, 8139078656), (50, 0, 8139078656),
      (51, 0, 8143404032), (52, 0, 8143404032), (54, 2, 622855168), (55, 0, 622857216),
      (56, 0, 622857216), (57, 0, 622861312), (58, 0, 622861312), (59, 0, 622869504),
      (60, 0, 622869504), (61, 0, 7065320448), (62, 0, 7065320448), (63, 0, 7065320448),
      (64, 0, 7065336832), (65, 0, 7065336832), (66, 0, 7065336832), (67, 0, 7065336832)],
    [
      (8, 0, 8139078656), (9, 0, 8139078656), (10, 0, 8139078656), (11, 0, 8139078656),
      (12, 0, 8139078656), (13, 0, 8143404032), (14, 0, 8143404032), (15, 0, 8143404032),
      (16, 0, 8143404032), (17, 0, 8143404032), (18, 0, 8143404032), (21, 0, 320),
      (22, 0, 320), (28, 0, 8139078656), (29, 0, 8143404032), (30, 0, 8143404032),
      (31, 0, 8143404032), (32, 0, 320), (33, 0, 320), (35, 0, 8176958464),
      (36, 0, 8176958464), (37, 0, 8176958464), (38, 0, 8176958464), (39, 0, 8176958464),
      (40, 0, 8176958464), (41, 0, 8176958464), (45, 0, 8139078656), (46, 0, 8139078656),
      (47, 0, 8139078656), (48, 0, 8139078656), (49, 0, 8139078656), (50, 0, 8139078656),
      (51, 0, 8143404032), (52, 0, 8143404032), (56, 2, 622857216), (57, 0, 622861312),
      (58, 0, 622861312), (59, 0, 622869504), (60, 0, 622869504), (61, 0, 7065320448),
      (62, 0, 7065320448), (63, 0, 7065320448), (64, 0, 7065336832), (65, 0, 7065336832),
      (66, 0, 7065336832), (67, 0, 7065336832)],
    [
      (8, 0, 8139078656), (9, 0, 8139078656), (10, 0, 8139078656), (11, 0, 8139078656),
      (12, 0, 8139078656), (13, 0, 8143404032), (14, 0, 8143404032), (15, 0, 8143404032),
      (16, 0, 8143404032), (17, 0, 8143404032), (18, 0, 8143404032), (21, 0, 320),
      (22, 0, 320), (28, 0, 8139078656), (29, 0, 8143404032), (30, 0, 8143404032),
      (31, 0, 8143404032), (32, 0, 320), (33, 0, 320), (35, 0, 8176958464),
      (36, 0, 8176958464), (37, 0, 8176958464), (38, 0, 8176958464), (39, 0, 8176958464),
      (40, 0, 8176958464), (41, 0, 8176958464), (45, 0, 8139078656), (46, 0, 8139078656),
      (47, 0, 8139078656), (48, 0, 8139078656), (49, 0, 8139078656), (50, 0, 8139078656),
      (51, 0, 8143404032), (52, 0, 8143404032), (58, 2, 622861312), (59, 0, 622869504),
      (60, 0, 622869504), (61, 0, 7065320448), (62, 0, 7065320448), (63, 0, 7065320448),
      (64, 0, 7065336832), (65, 0, 7065336832), (66, 0, 7065336832), (67, 0, 7065336832)],
    [
      (8, 0, 8139078656), (9, 0, 8139078656), (10, 0, 8139078656), (11, 0, 8139078656),
      (12, 0, 8139078656), (13, 0, 8143404032), (14, 0, 8143404032), (15, 0, 8143404032),
      (16, 0, 8143404032), (17, 0, 8143404032), (18, 0, 8143404032), (21, 0, 320),
      (22, 0, 320), (28, 0, 8139078656), (29, 0, 8143404032), (30, 0, 8143404032),
      (31, 0, 8143404032), (32, 0, 320), (33, 0, 320), (35, 0, 8176958464),
      (36, 0, 8176958464), (37, 0, 8176958464), (38, 0, 8176958464), (39, 0, 8176958464),
      (40, 0, 8176958464), (41, 0, 8176958464), (45, 0, 8139078656), (46, 0, 8139078656),
      (47, 0, 8139078656), (48, 0, 8139078656), (49, 0, 8139078656), (50, 0, 8139078656),
      (51, 0, 8143404032), (52, 0, 8143404032), (60, 2, 622869504), (61, 0, 7065320448),
      (62, 0, 7065320448), (63, 0, 7065320448), (64, 0, 7065336832), (65, 0, 7065336832),
      (66, 0, 7065336832), (67, 0, 7065336832)],
    [
      (8, 0, 8139078656), (9, 0, 8139078656), (10, 0, 8139078656), (11, 0, 8139078656),
      (12, 0, 8139078656), (13, 0, 8143404032), (14, 0, 8143404032), (15, 0, 8143404032),
      (16, 0, 8143404032), (17, 0, 8143404032), (18, 0, 8143404032), (21, 0, 320),
      (22, 0, 320), (28, 0, 8139078656), (29, 0, 8143404032), (30, 0, 8143404032),
      (31, 0, 8143404032), (32, 0, 320), (33, 0, 320), (35, 0, 8176958464),
      (36, 0, 8176958464), (37, 0, 8176958464), (38, 0, 8176958464), (39, 0, 8176958464),
      (40, 0, 8176958464), (41, 0, 8176958464), (45, 0, 8139078656), (46, 0, 8139078656),
      (47, 0, 8139078656), (48, 0, 8139078656), (49, 0, 8139078656), (50, 0, 8139078656),
      (51, 0, 8143404032), (52, 0, 8143404032), (62, 2, 7065320448), (64, 0, 7065336832),
      (65, 0, 7065336832), (66, 0, 7065336832), (67, 0, 7065336832)],
    [
      (8, 0, 8139078656), (9, 0, 8139078656), (10, 0, 8139078656), (11, 0, 8139078656),
      (12, 0, 8139078656), (13, 0, 8143404032), (14, 0, 8143404032), (15, 0, 8143404032),
      (16, 0, 8143404032), (17, 0, 8143404032), (18, 0, 8143404032), (21, 0, 320),
      (22, 0, 320), (28, 0, 8139078656), (29, 0, 8143404032), (30, 0, 8143404032),
      (31, 0, 8143404032), (32, 0, 320), (33, 0, 320), (35, 0, 8176958464),
      (36, 0, 8176958464), (37, 0, 8176958464), (38, 0, 8176958464), (39, 0, 8176958464),
      (40, 0, 8176958464), (41, 0, 8176958464), (45, 0, 8139078656), (46, 0, 8139078656),
      (47, 0, 8139078656), (48, 0, 8139078656), (49, 0, 8139078656), (50, 0, 8139078656),
      (51, 0, 8143404032), (52, 0, 8143404032), (63, 2, 7065320448), (64, 0, 7065336832),
      (65, 0, 7065336832), (66, 0, 7065336832), (67, 0, 7065336832)],
    [
      (8, 0, 8139078656), (9, 0, 8139078656), (10, 0, 8139078656), (11, 0, 8139078656),
      (12, 0, 8139078656), (13, 0, 8143404032), (14, 0, 8143404032), (15, 0, 8143404032),
      (16, 0, 8143404032), (17, 0, 8143404032), (18, 0, 8143404032), (21, 0, 320),
      (22, 0, 320), (28, 0, 8139078656), (29, 0, 8143404032), (30, 0, 8143404032),
      (31, 0, 8143404032), (32, 0, 320), (33, 0, 320), (35, 0, 8176958464),
      (36, 0, 8176958464), (37, 0, 8176958464), (38, 0, 8176958464), (39, 0, 8176958464),
      (40, 0, 8176958464), (41, 0, 8176958464), (45, 0, 8139078656), (46, 0, 8139078656),
      (47, 0, 8139078656), (48, 0, 8139078656), (49, 0, 8139078656), (50, 0, 8139078656),
      (51, 0, 8143404032), (52, 0, 8143404032), (65, 2, 7065336832), (66, 0, 7065336832),
      (67, 0, 7065336832)],
    [(40, 3, 8176958464)],
    [(44, 1, 553648128)],
    [(41, 3, 8176958464), (43, 1, 553648128)],
    [(42, 1, 553648128)],
    [(36, 3, 8176958464)],
    [(29, 3, 8143404032)],
    [(14, 3, 8143404032)],
    [(24, 2, 8176958464), (25, 2, 8176958464)],
    [(17, 3, 8143404032), (20, 1, 8176958464), (26, 0, 8176958464)],
    [(26, 2, 8176958464)],
    [(27, 1, 67108864)],
    [(20, 2, 8176958464)],
    [(46, 3, 8139078656)],
    [(14, 1, 8143404032), (29, 1, 8143404032), (50, 3, 8139078656)],
    [(14, 1, 8143404032), (29, 1, 8143404032), (49, 3, 8139078656)],
    [(54, 3, 622855168), (56, 1, 622857216)],
    [(56, 3, 622857216), (58, 1, 622861312)],
    [(58, 3, 622861312), (60, 1, 622869504)],
    [(60, 3, 622869504), (62, 1, 7065320448), (63, 1, 7065320448)],
    [(62, 3, 7065320448), (65, 1, 7065336832)],
    [(63, 3, 7065320448), (65, 1, 7065336832)],
    [(65, 3, 7065336832)],
    [(41, 4, 8176958464)],
    [
      (8, 0, 8069872640), (9, 0, 8069872640), (10, 0, 8069872640), (11, 0, 8069872640),
      (12, 0, 8069872640), (13, 0, 8074198016), (14, 0, 8074198016), (15, 0, 8074198016),
      (16, 0, 8074198016), (17, 0, 8074198016), (18, 0, 8074198016), (21, 0, 320),
      (22, 0, 320), (28, 0, 8069872640), (29, 0, 8074198016), (30, 0, 8074198016),
      (31, 0, 8074198016), (32, 0, 320), (33, 0, 320), (34, 0, 553648128), (35, 0, 8107752448),
      (36, 0, 8107752448), (37, 0, 8107752448), (38, 0, 8107752448), (39, 0, 8107752448),
      (40, 0, 8107752448), (41, 0, 8107752448), (43, 2, 553648128), (44, 0, 553648128),
      (45, 0, 8069872640), (46, 0, 8069872640), (47, 0, 8069872640), (48, 0, 8069872640),
      (49, 0, 8069872640), (50, 0, 8069872640), (51, 0, 8074198016), (52, 0, 8074198016),
      (53, 0, 553649152), (54, 0, 553649152), (55, 0, 553651200), (56, 0, 553651200),
      (57, 0, 553655296), (58, 0, 553655296), (59, 0, 553663488), (60, 0, 553663488),
      (61, 0, 6996114432), (62, 0, 6996114432), (63, 0, 6996114432), (64, 0, 6996130816),
      (65, 0, 6996130816), (66, 0, 6996130816), (67, 0, 6996130816)],
    [(25, 3, 8176958464)],
    [(24, 3, 8176958464)],
    [(26, 3, 8176958464)],
    [(43, 3, 553648128)],
    [(25, 4, 8176958464)],
    [(0, 1, 1)],
    []]
  first := [
    1835008, 1835008, 786432, 1048576, 407012160, 4325376, 402686784, 402686784, 33554432,
    268435968, 320, 33554432, 4710368248, 131072, 402686784, 134250496, 268435456, 4710368248,
    8388792, 128, 4710368248, 4710368248, 415400952, 415400952, 8388792, 4710368248,
    4710368248, 4710368248, 4710368248, 4710368248, 4710368248, 4710368248]
  nullable := 567373769736192
  past := [
    [],
    [(34, 1)],
    [(18, 2)],
    [(19, 2)],
    [(20, 2)],
    [(35, 2), (34, 1)],
    [(36, 2), (34, 1)],
    [(3, 618970092934272672300564496)],
    [(4, 618970092934272672300564496)],
    [(5, 618970092934272672300564496)],
    [(7, 618970092934272672300564496)],
    [(9, 618970093367040448993222672)],
    [(15, 618970093367040448993222672)],
    [(17, 618970092934272672300564496)],
    [(22, 618970092934272672300564496)],
    [(23, 618970092934272672300564496)],
    [(27, 618970093367040448993222672)],
    [(28, 618970093367040448993222672)],
    [(32, 618970092862215078262374416)],
    [(37, 618970092934272672300564496)],
    [(38, 618970092934272672300564496)],
    [(39, 618970092934272672300564496)],
    [(40, 618970093366618236528156688)],
    [(42, 618970093367040448993222672)],
    [(46, 618970092934272672300564496)],
    [(47, 618970093366618236528156688)],
    [(48, 618970093367040448993222672)],
    [(49, 618970093367040448993222672)],
    [(50, 16), (20, 2)],
    [(51, 618970092934272672300564496)],
    [(52, 618970092934272672300564496)],
    [(55, 618970092862215078262374416)],
    [(56, 618970092862215078262636560)],
    [(57, 618970092934272672300564496)],
    [(58, 618970019651699535727591440)],
    [(59, 618970019651699535727591440)],
    [(60, 618970020228160288031014928)],
    [(61, 618970021381081792637861904)],
    [(62, 618970023686924801851555856)],
    [(63, 618970028298610820278943760)],
    [(64, 618970055968726930843271184)],
    [(23, 1024), (7, 618970092934272672300564496)],
    [(16, 2048), (9, 618970093367040448993222672)],
    [(39, 8192), (17, 618970092934272672300564496)],
    [(39, 16384), (22, 618970092934272672300564496)],
    [(50, 32768), (23, 618970092934272672300564496)],
    [(55, 262144), (32, 618970092862215078262374416)],
    [(17, 1813388729448332043223040), (39, 618970093366618236528156688)],
    [(22, 1813388729448332043223040), (39, 618970093366618236528156688)],
    [(6, 8388608)],
    [(8, 8388608)],
    [(43, 8388608), (42, 618970093367040448993222672)],
    [(21, 268435456), (50, 16), (20, 2)],
    [(25, 18889486197677440892928)],
    [(41, 536870912), (51, 618970092934272672300564496)],
    [(44, 2251800350556160)],
    [(30, 70370891661312), (55, 618970092862215078262636560)],
    [(17, 8589934592), (57, 618970092934272672300564496)],
    [(22, 8589934592), (57, 618970092934272672300564496)],
    [(10, 17179869184), (58, 618970019651699535727591440)],
    [(11, 2417851639229292709150720), (59, 618970020228160288031014928)],
    [(12, 4835703278458585418301440), (60, 618970021381081792637861904)],
    [(13, 9671406556917170836602880), (61, 618970023686924801851555856)],
    [(31, 19342813113834341673205760), (62, 618970028298610820278943760)],
    [(32, 19342813113834341673205760), (62, 618970028298610820278943760)],
    [(14, 116056878683004950527606784), (63, 618970055968726930843271184)],
    [(24, 2199023255552), (23, 1024), (7, 618970092934272672300564496)],
    [(50, 618970019642692336472817664)],
    [(53, 2199023255552), (23, 1024), (7, 618970092934272672300564496)],
    [(54, 2199023255552)],
    [(24, 35184372088832), (50, 32768), (23, 618970092934272672300564496)],
    [
      (40, 140737488355328), (17, 1813388729448332043223040), (39, 618970093366618236528156688)],
    [
      (40, 281474976710656), (22, 1813388729448332043223040), (39, 618970093366618236528156688)],
    [(23, 1125899906842624), (8, 8388608)],
    [(41, 2251799813685248), (43, 8388608), (42, 618970093367040448993222672)],
    [(45, 9007199254740992), (25, 18889486197677440892928)],
    [(50, 9007199254740992)],
    [(44, 18889483945877090336768), (41, 2251800350556160)],
    [(56, 72057594037927936), (30, 70370891661312), (55, 618970092862215078262636560)],
    [(39, 144115188075855872), (17, 8589934592), (57, 618970092934272672300564496)],
    [(39, 288230376151711744), (22, 8589934592), (57, 618970092934272672300564496)],
    [(59, 576460752303423488), (10, 17179869184), (58, 618970019651699535727591440)],
    [
      (60, 1152921504606846976), (11, 2417851639229292709150720),
      (59, 618970020228160288031014928)],
    [
      (61, 2305843009213693952), (12, 4835703278458585418301440),
      (60, 618970021381081792637861904)],
    [
      (62, 4611686018427387904), (13, 9671406556917170836602880),
      (61, 618970023686924801851555856)],
    [
      (63, 9223372036854775808), (31, 19342813113834341673205760),
      (62, 618970028298610820278943760)],
    [
      (63, 18446744073709551616), (32, 19342813113834341673205760),
      (62, 618970028298610820278943760)],
    [
      (64, 36893488147419103232), (14, 116056878683004950527606784),
      (63, 618970055968726930843271184)],
    [
      (24, 295147905179352825856), (53, 2199023255552), (23, 1024),
      (7, 618970092934272672300564496)],
    [(29, 295147905179352825856), (53, 2199023255552)],
    [(3, 9444732965739290427392), (23, 1125899906842624), (8, 8388608)],
    [(24, 9444732965739290427392), (23, 1125899906842624), (8, 8388608)],
    [(26, 37778931862957161709568), (45, 9007199254740992), (25, 18889486197677440892928)],
    [(54, 618970019642690137449562112), (29, 295147905179352825856), (53, 2199023255552)],
    [
      (24, 1237940039285380274899124224), (3, 9444732965739290427392), (23, 1125899906842624),
      (8, 8388608)],
    [(33, 1)],
    [(0, 39614081257132168796771975168), (33, 1)]]
  weight := [
    17, 17, 17, 17, 17, 17, 17, 17, 17, 17, 17, 17, 17, 17, 17, 17, 17, 17, 17, 17, 17, 17, 17,
    17, 17, 17, 17, 17, 17, 17, 17, 17, 17, 15, 16, 16, 16, 13, 15, 14, 15, 15, 15, 16, 16, 2,
    16, 16, 16, 16, 3, 15, 16, 1, 2, 11, 12, 14, 4, 5, 6, 7, 8, 9, 10]
  bonus := 17
  flags := 618970093367040448993222673
  eofs := 79228162514264337593543950336

theorem avt_complete : checkComplete avtTables avtCert = true := by
  decide +kernel

theorem avt_sound : checkSound avtTables avtCert 66 = true := by
  decide +kernel

end Verif.Parse
