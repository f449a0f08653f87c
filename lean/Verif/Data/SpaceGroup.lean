import Verif.Model.Core

set_option autoImplicit false

/-! # Tables of src/data/spacegroup.rs

GENERATED by gen_tables.py; literal copies, in source order. -/

namespace CrystSymm

/-- `SG_NUM_TO_SYMBOL` (src/data/spacegroup.rs:7-240). -/
def sgNumToSymbol : List (Nat × String) := [
  (1, "P1"),
  (2, "P-1"),
  (3, "P121"),
  (4, "P12_11"),
  (5, "C121"),
  (6, "P1m1"),
  (7, "P1c1"),
  (8, "C1m1"),
  (9, "C1c1"),
  (10, "P12/m1"),
  (11, "P12_1/m1"),
  (12, "C12/m1"),
  (13, "P12/c1"),
  (14, "P12_1/c1"),
  (15, "C12/c1"),
  (16, "P222"),
  (17, "P222_1"),
  (18, "P2_12_12"),
  (19, "P2_12_121"),
  (20, "C222_1"),
  (21, "C222"),
  (22, "F222"),
  (23, "I222"),
  (24, "I2_12_121"),
  (25, "Pmm2"),
  (26, "Pmc2_1"),
  (27, "Pcc2"),
  (28, "Pma2"),
  (29, "Pca2_1"),
  (30, "Pnc2"),
  (31, "Pmn2_1"),
  (32, "Pba2"),
  (33, "Pna2_1"),
  (34, "Pnn2"),
  (35, "Cmm2"),
  (36, "Cmc2_1"),
  (37, "Ccc2"),
  (38, "Amm2"),
  (39, "Aem2"),
  (40, "Ama2"),
  (41, "Aea2"),
  (42, "Fmm2"),
  (43, "Fdd2"),
  (44, "Imm2"),
  (45, "Iba2"),
  (46, "Ima2"),
  (47, "Pmmm"),
  (48, "Pnnn1"),
  (49, "Pccm"),
  (50, "Pban1"),
  (51, "Pmma"),
  (52, "Pnna"),
  (53, "Pmna"),
  (54, "Pcca"),
  (55, "Pbam"),
  (56, "Pccn"),
  (57, "Pbcm"),
  (58, "Pnnm"),
  (59, "Pmmn1"),
  (60, "Pbcn"),
  (61, "Pbca"),
  (62, "Pnma"),
  (63, "Cmcm"),
  (64, "Cmce"),
  (65, "Cmmm"),
  (66, "Cccm"),
  (67, "Cmme"),
  (68, "Ccce1"),
  (69, "Fmmm"),
  (70, "Fddd1"),
  (71, "Immm"),
  (72, "Ibam"),
  (73, "Ibca"),
  (74, "Imma"),
  (75, "P4"),
  (76, "P4_1"),
  (77, "P4_2"),
  (78, "P4_3"),
  (79, "I4"),
  (80, "I4_1"),
  (81, "P-4"),
  (82, "I-4"),
  (83, "P4/m"),
  (84, "P4_2/m"),
  (85, "P4/n1"),
  (86, "P4_2/n"),
  (87, "I4/m"),
  (88, "I4_1/a"),
  (89, "P422"),
  (90, "P42_12"),
  (91, "P4_122"),
  (92, "P4_12_12"),
  (93, "P4_222"),
  (94, "P4_22_12"),
  (95, "P4_322"),
  (96, "P4_32_12"),
  (97, "I422"),
  (98, "I4_122"),
  (99, "P4mm"),
  (100, "P4bm"),
  (101, "P4_2cm"),
  (102, "P4_2nm"),
  (103, "P4cc"),
  (104, "P4nc"),
  (105, "P4_2mc"),
  (106, "P4_2bc"),
  (107, "I4mm"),
  (108, "I4cm"),
  (109, "I4_1md"),
  (110, "I4_1cd"),
  (111, "P-42m"),
  (112, "P-42c"),
  (113, "P-42_1m"),
  (114, "P-42_1c"),
  (115, "P-4m2"),
  (116, "P-4c2"),
  (117, "P-4b2"),
  (118, "P-4n2"),
  (119, "I-4m2"),
  (120, "I-4c2"),
  (121, "I-42m"),
  (122, "I-42d"),
  (123, "P4/mmm"),
  (124, "P4/mcc"),
  (125, "P4/nbm1"),
  (126, "P4/nnc1"),
  (127, "P4/mbm"),
  (128, "P4/mnc"),
  (129, "P4/nmm1"),
  (130, "P4/ncc1"),
  (131, "P4_2/mmc"),
  (132, "P4_2/mcm"),
  (133, "P4_2/nbc"),
  (134, "P4_2/nnm"),
  (135, "P4_2/mbc"),
  (136, "P4_2/mnm"),
  (137, "P4_2/nmc"),
  (138, "P4_2/ncm"),
  (139, "I4/mmm"),
  (140, "I4/mcm"),
  (141, "I4_1/amd"),
  (142, "I4_1/acd"),
  (143, "P3"),
  (144, "P3_1"),
  (145, "P3_2"),
  (146, "R3H"),
  (147, "P-3"),
  (148, "R-3H"),
  (149, "P312"),
  (150, "P321"),
  (151, "P3_112"),
  (152, "P3_121"),
  (153, "P3_212"),
  (154, "P3_221"),
  (155, "R32"),
  (156, "P3m1"),
  (157, "P31m"),
  (158, "P3c1"),
  (159, "P31c"),
  (160, "R3m"),
  (161, "R3c"),
  (162, "P-31m"),
  (163, "P-31c"),
  (164, "P-3m1"),
  (165, "P-3c1"),
  (166, "R-3m"),
  (167, "R-3c"),
  (168, "P6"),
  (169, "P6_1"),
  (170, "P6_5"),
  (171, "P6_2"),
  (172, "P6_4"),
  (173, "P6_3"),
  (174, "P-6"),
  (175, "P6/m"),
  (176, "P6_3/m"),
  (177, "P622"),
  (178, "P6_122"),
  (179, "P6_522"),
  (180, "P6_222"),
  (181, "P6_422"),
  (182, "P6_322"),
  (183, "P6mm"),
  (184, "P6cc"),
  (185, "P6_3cm"),
  (186, "P6_3mc"),
  (187, "P-6m2"),
  (188, "P-6c2"),
  (189, "P-62m"),
  (190, "P-62c"),
  (191, "P6/mmm"),
  (192, "P6/mcc"),
  (193, "P6_3/mcm"),
  (194, "P6_3/mmc"),
  (195, "P23"),
  (196, "F23"),
  (197, "I23"),
  (198, "P2_13"),
  (199, "I2_13"),
  (200, "Pm-3"),
  (201, "Pn-31"),
  (202, "Fm-3"),
  (203, "Fd-31"),
  (204, "Im-3"),
  (205, "Pa-3"),
  (206, "Ia-3"),
  (207, "P432"),
  (208, "P4_232"),
  (209, "F432"),
  (210, "F4_132"),
  (211, "I432"),
  (212, "P4_332"),
  (213, "P4_132"),
  (214, "I4_132"),
  (215, "P-43m"),
  (216, "F-43m"),
  (217, "I-43m"),
  (218, "P-43n"),
  (219, "F-43c"),
  (220, "I-43d"),
  (221, "Pm-3m"),
  (222, "Pn-3n1"),
  (223, "Pm-3n"),
  (224, "Pn-3m1"),
  (225, "Fm-3m"),
  (226, "Fm-3c"),
  (227, "Fd-3m1"),
  (228, "Fd-3c1"),
  (229, "Im-3m"),
  (230, "Ia-3d")]

/-- entry `(Triclinic, 1)` of `SG_NUM_TO_FULL_MATRICES` (src/data/spacegroup.rs:244-580). -/
def sgTableTriclinic1 : List (Nat × List Nat) := [
  (1, [16484])]

/-- entry `(Triclinic, 2)` of `SG_NUM_TO_FULL_MATRICES` (src/data/spacegroup.rs:244-580). -/
def sgTableTriclinic2 : List (Nat × List Nat) := [
  (2, [16484, 3198])]

/-- entry `(Monoclinic, 2)` of `SG_NUM_TO_FULL_MATRICES` (src/data/spacegroup.rs:244-580). -/
def sgTableMonoclinic2 : List (Nat × List Nat) := [
  (3, [3360, 16484]),
  (4, [633216, 16484]),
  (5, [7410, 16484]),
  (6, [16322, 16484]),
  (7, [16484, 95054]),
  (8, [12272, 16484]),
  (9, [16484, 91004])]

/-- entry `(Monoclinic, 4)` of `SG_NUM_TO_FULL_MATRICES` (src/data/spacegroup.rs:244-580). -/
def sgTableMonoclinic4 : List (Nat × List Nat) := [
  (10, [3360, 16322, 16484, 3198]),
  (11, [633216, 646178, 16484, 3198]),
  (12, [12272, 7410, 16484, 3198]),
  (13, [16484, 3198, 82092, 95054]),
  (14, [16484, 3198, 711948, 724910]),
  (15, [16484, 3198, 91004, 86142])]

/-- entry `(Orthorhombic, 4)` of `SG_NUM_TO_FULL_MATRICES` (src/data/spacegroup.rs:244-580). -/
def sgTableOrthorhombic4 : List (Nat × List Nat) := [
  (16, [3360, 16484, 3200, 16320]),
  (17, [16320, 16484, 82092, 81932]),
  (18, [5685024, 16484, 3200, 5672064]),
  (19, [5685024, 16484, 5120780, 711948]),
  (20, [16484, 12270, 81932, 86142]),
  (21, [3200, 7410, 16484, 12270]),
  (22, [16484, 394, 10228, 12258]),
  (23, [16484, 11514, 8308, 3058]),
  (24, [716896, 5671762, 16484, 5129094]),
  (25, [3200, 16484, 16322, 3362]),
  (26, [16484, 3362, 81932, 95054]),
  (27, [3200, 16484, 82094, 95054]),
  (28, [3200, 16484, 5055170, 5042210]),
  (29, [16484, 5055170, 81932, 5120942]),
  (30, [3200, 16484, 724910, 711950]),
  (31, [16484, 3362, 5120780, 5133902]),
  (32, [3200, 5685026, 16484, 5672066]),
  (33, [16484, 5685026, 81932, 5750798]),
  (34, [3200, 16484, 5763758, 5750798]),
  (35, [12272, 7412, 16484, 3200]),
  (36, [16484, 7412, 91004, 81932]),
  (37, [16484, 91004, 3200, 86144]),
  (38, [16432, 3362, 16484, 3310]),
  (39, [16484, 725020, 3310, 711950]),
  (40, [5055280, 5042210, 16484, 3310]),
  (41, [16484, 5763868, 3310, 5750798]),
  (42, [19288, 12258, 16484, 9454]),
  (43, [16484, 12258, 2883172, 2893006]),
  (44, [16624, 11514, 16484, 11374]),
  (45, [5685328, 11514, 16484, 5680078]),
  (46, [719962, 725212, 16484, 11514])]

/-- entry `(Orthorhombic, 8)` of `SG_NUM_TO_FULL_MATRICES` (src/data/spacegroup.rs:244-580). -/
def sgTableOrthorhombic8 : List (Nat × List Nat) := [
  (47, [3360, 3200, 16320, 16482, 16484, 3362, 16322, 3198]),
  (48, [3360, 3200, 16320, 16484, 5750634, 5763918, 5750798, 5763758]),
  (49, [3200, 16482, 16484, 82092, 95052, 82094, 95054, 3198]),
  (50, [3360, 3200, 16320, 5685186, 16484, 5672066, 5685026, 5671902]),
  (51, [3360, 5042048, 5055168, 5055330, 16484, 5042210, 16322, 3198]),
  (52, [5042048, 5055330, 16484, 724908, 5750796, 711950, 5763758, 3198]),
  (53, [16320, 3362, 16484, 5120940, 5120780, 5134062, 5133902, 3198]),
  (54, [5042048, 5055330, 16484, 82092, 5133900, 5120942, 95054, 3198]),
  (55, [5672064, 5685024, 3200, 16482, 16484, 5672066, 5685026, 3198]),
  (56, [5671904, 5685186, 16484, 711948, 5133900, 5120942, 724910, 3198]),
  (57, [646176, 633218, 16484, 711948, 81932, 95214, 724910, 3198]),
  (58, [3200, 16482, 16484, 5763756, 5750796, 5750798, 5763758, 3198]),
  (59, [5672064, 5685024, 3200, 5685186, 16484, 3362, 16322, 5671902]),
  (60, [5685024, 5672066, 16484, 5750636, 82092, 5763918, 95054, 3198]),
  (61, [5685024, 5672066, 16484, 711948, 5120780, 5134062, 724910, 3198]),
  (62, [633216, 646178, 16484, 5763756, 5120780, 5134062, 5750798, 3198]),
  (63, [16484, 81932, 12270, 95214, 7412, 3198, 91004, 86142]),
  (64, [16484, 5750636, 12270, 5763918, 7412, 5754846, 5759708, 3198]),
  (65, [3200, 16482, 16484, 12270, 12272, 7410, 7412, 3198]),
  (66, [3200, 86144, 16482, 16484, 3198, 91002, 91004, 86142]),
  (67, [5671904, 5685186, 16484, 12270, 5680976, 5676114, 7412, 3198]),
  (68, [3200, 5754848, 16484, 5750634, 12270, 5763918, 7410, 5759708]),
  (69, [7424, 12258, 16484, 394, 9454, 10228, 19288, 3198]),
  (70, [12258, 16484, 2883172, 394, 2893006, 10228, 2876916, 2881142]),
  (71, [16484, 8168, 11374, 16624, 3058, 8308, 11514, 3198]),
  (72, [16484, 8168, 5680078, 5685328, 5671762, 5677012, 11514, 3198]),
  (73, [716896, 16484, 5129094, 5685328, 5671762, 5125748, 719962, 3198]),
  (74, [5125888, 16484, 5129094, 16624, 3058, 5125748, 5128954, 3198])]

/-- entry `(Tetragonal, 4)` of `SG_NUM_TO_FULL_MATRICES` (src/data/spacegroup.rs:244-580). -/
def sgTableTetragonal4 : List (Nat × List Nat) := [
  (75, [3200, 7898, 11786, 16484]),
  (76, [47264, 16484, 129884, 81932]),
  (77, [3200, 86630, 16484, 90518]),
  (78, [51152, 16484, 81932, 125996]),
  (79, [15922, 16484, 12076, 11514]),
  (80, [7964008, 11514, 16484, 7967854]),
  (81, [7896, 11784, 16484, 3200]),
  (82, [3760, 11514, 16484, 7606])]

/-- entry `(Tetragonal, 8)` of `SG_NUM_TO_FULL_MATRICES` (src/data/spacegroup.rs:244-580). -/
def sgTableTetragonal8 : List (Nat × List Nat) := [
  (83, [3200, 16482, 16484, 11784, 11786, 7896, 7898, 3198]),
  (84, [3200, 16482, 16484, 86628, 86630, 90516, 90518, 3198]),
  (85, [3200, 5685186, 16484, 11784, 5680490, 7896, 5676602, 5671902]),
  (86, [3200, 16484, 5755334, 11784, 5750634, 5763918, 5759222, 7896]),
  (87, [16484, 8168, 12076, 3760, 15922, 7606, 11514, 3198]),
  (88, [7960100, 16484, 7964008, 11514, 7967854, 3760, 7606, 7955130]),
  (89, [16320, 3200, 3360, 16484, 11786, 12270, 7410, 7898]),
  (90, [5672064, 3200, 5685024, 16484, 5680490, 12270, 7410, 5676602]),
  (91, [3360, 47264, 130368, 16484, 81932, 95052, 46776, 129884]),
  (92, [5715968, 16484, 5711430, 81932, 12270, 5803122, 5798588, 86142]),
  (93, [3360, 3200, 16320, 16484, 86630, 90518, 91002, 86142]),
  (94, [3200, 16484, 5755334, 5750796, 5763756, 12270, 7410, 5759222]),
  (95, [3360, 16484, 125508, 81932, 125996, 95052, 51152, 51636]),
  (96, [16484, 5724390, 5794700, 81932, 12270, 5719856, 5790162, 86142]),
  (97, [16484, 12076, 15922, 3058, 3956, 8308, 7410, 11514]),
  (98, [16484, 7964008, 7954990, 7967854, 7960240, 7410, 3956, 11514]),
  (99, [3200, 3362, 16322, 16484, 11786, 12272, 7412, 7898]),
  (100, [3200, 5672066, 5685026, 16484, 11786, 5680976, 5676116, 7898]),
  (101, [3200, 16484, 86630, 95054, 82094, 12272, 7412, 90518]),
  (102, [3200, 16484, 5755334, 5763758, 5750798, 12272, 7412, 5759222]),
  (103, [3200, 86144, 16484, 11786, 82094, 95054, 7898, 91004]),
  (104, [3200, 5754848, 16484, 11786, 5750798, 5763758, 7898, 5759708]),
  (105, [3200, 86144, 16322, 3362, 16484, 86630, 90518, 91004]),
  (106, [3200, 5754848, 5685026, 5672066, 16484, 86630, 90518, 5759708]),
  (107, [16484, 12076, 15726, 11374, 16624, 12272, 15922, 11514]),
  (108, [16484, 12076, 5684430, 5680078, 5685328, 5680976, 15922, 11514]),
  (109, [16484, 7964008, 7967658, 7964204, 7967854, 11374, 16624, 11514]),
  (110, [16484, 7964008, 3558666, 3555212, 5680078, 7967854, 5685328, 11514]),
  (111, [3200, 16320, 3360, 16484, 11784, 12272, 7412, 7896]),
  (112, [3200, 86144, 16484, 11784, 95052, 82092, 7896, 91004]),
  (113, [5672064, 3200, 5685024, 16484, 11784, 5680976, 5676116, 7896]),
  (114, [3200, 5754848, 16484, 11784, 5750796, 5763756, 7896, 5759708]),
  (115, [3200, 3362, 16322, 16484, 11784, 12270, 7410, 7896]),
  (116, [3200, 16484, 11784, 82094, 95054, 7896, 91002, 86142]),
  (117, [3200, 5672066, 5685026, 16484, 11784, 5680974, 5676114, 7896]),
  (118, [3200, 16484, 11784, 5750798, 5763758, 7896, 5759706, 5754846]),
  (119, [16484, 11374, 3760, 16624, 7410, 3956, 7606, 11514]),
  (120, [16484, 5680078, 3760, 5685328, 5676114, 5672660, 7606, 11514]),
  (121, [16484, 15726, 3760, 12272, 3058, 8308, 7606, 11514]),
  (122, [16484, 7967658, 7964204, 7954990, 3760, 7960240, 7606, 11514])]

/-- entry `(Tetragonal, 16)` of `SG_NUM_TO_FULL_MATRICES` (src/data/spacegroup.rs:244-580). -/
def sgTableTetragonal16 : List (Nat × List Nat) := [
  (123, [16320, 3200, 16482, 3362, 16484, 3360, 16322, 11784, 11786, 12270, 12272, 7410, 7412, 
      7896, 7898, 3198]),
  (124, [3200, 86144, 16482, 16484, 3198, 11784, 11786, 95052, 82092, 82094, 95054, 86142, 7896, 
      7898, 91004, 91002]),
  (125, [16320, 3200, 5685186, 5672066, 16484, 3360, 5685026, 5680488, 11786, 12270, 5680976, 
      7410, 5676116, 5676600, 7898, 5671902]),
  (126, [16320, 3200, 3360, 5754848, 5755332, 16484, 11786, 5750634, 5763918, 5750798, 12270, 
      5763758, 7410, 5759220, 7898, 5759708]),
  (127, [5685024, 3200, 16482, 5672066, 16484, 5672064, 5685026, 11784, 11786, 5680974, 5680976, 
      5676114, 5676116, 7896, 7898, 3198]),
  (128, [3200, 5754848, 16482, 16484, 3198, 11784, 11786, 5763756, 5750796, 5750798, 5763758, 
      7896, 5759706, 7898, 5759708, 5754846]),
  (129, [5685024, 3200, 5685186, 3362, 16484, 5672064, 16322, 11784, 5680490, 12270, 5680976, 
      7410, 5676116, 7896, 5676602, 5671902]),
  (130, [3200, 5754848, 5685186, 16484, 11784, 5680490, 5763756, 5750796, 82094, 95054, 5671902, 
      86142, 7896, 5676602, 5759708, 91002]),
  (131, [3360, 3200, 3362, 16482, 86628, 16484, 86630, 16322, 16320, 86144, 90516, 90518, 86142, 
      91002, 91004, 3198]),
  (132, [3200, 16482, 86628, 16484, 86630, 82092, 95052, 12270, 82094, 95054, 12272, 7410, 90516, 
      7412, 90518, 3198]),
  (133, [3200, 86144, 5685026, 5672066, 16484, 5755334, 11784, 5750634, 82092, 95052, 5763918, 
      5680974, 5676114, 5759222, 7896, 91004]),
  (134, [3360, 3200, 16320, 16484, 5755334, 11784, 5750634, 5763758, 5763918, 5750798, 12272, 
      7412, 5759222, 7896, 5759706, 5754846]),
  (135, [5672064, 3200, 5672066, 16482, 86628, 16484, 86630, 5685026, 5685024, 5754848, 90516, 
      5754846, 90518, 5759706, 5759708, 3198]),
  (136, [3200, 16482, 5755332, 16484, 5755334, 5750796, 5763756, 12270, 5750798, 5763758, 12272, 
      7410, 5759220, 7412, 5759222, 3198]),
  (137, [3200, 5754848, 16322, 3362, 16484, 5755334, 11784, 5750634, 5750796, 5763756, 5763918, 
      12270, 7410, 5759222, 7896, 5759708]),
  (138, [5672064, 3200, 5685024, 16484, 5755334, 11784, 5750634, 95054, 5763918, 82094, 5680976, 
      5676116, 5759222, 7896, 91002, 86142]),
  (139, [16484, 8168, 12076, 11374, 15726, 16624, 3760, 15922, 3058, 3956, 8308, 12272, 7410, 
      7606, 11514, 3198]),
  (140, [16484, 8168, 12076, 5680078, 5684430, 5685328, 3760, 15922, 5671762, 5672660, 5677012, 
      5680976, 5676114, 7606, 11514, 3198]),
  (141, [7960100, 16484, 7964008, 7967658, 7964204, 7954990, 7967854, 7960240, 3760, 7410, 11374, 
      3956, 16624, 7606, 7955130, 11514]),
  (142, [7960100, 16484, 7964008, 3558666, 3555212, 3545998, 7967854, 3551248, 3760, 5676114, 
      5680078, 5672660, 5685328, 7606, 7955130, 11514])]

/-- entry `(Hexagonal, 3)` of `SG_NUM_TO_FULL_MATRICES` (src/data/spacegroup.rs:244-580). -/
def sgTableHexagonal3 : List (Nat × List Nat) := [
  (143, [7817, 5225, 16484]),
  (144, [103640, 66866, 16484]),
  (145, [106232, 64274, 16484])]

/-- entry `(Hexagonal, 6)` of `SG_NUM_TO_FULL_MATRICES` (src/data/spacegroup.rs:244-580). -/
def sgTableHexagonal6 : List (Nat × List Nat) := [
  (147, [14457, 16484, 7817, 5225, 11865, 3198]),
  (149, [16484, 5225, 7817, 5547, 7410, 16563]),
  (150, [16484, 7817, 5225, 3117, 12270, 14133]),
  (151, [105825, 16484, 66866, 16563, 64596, 103640]),
  (152, [16484, 112548, 12270, 66866, 62166, 103640]),
  (153, [16484, 64274, 16563, 106232, 103962, 66459]),
  (154, [16484, 12270, 64274, 106232, 101532, 73182]),
  (156, [16484, 7817, 5225, 5549, 7412, 16565]),
  (157, [16484, 7817, 5225, 3119, 12272, 14135]),
  (158, [86144, 95297, 16484, 7817, 5225, 84281]),
  (159, [92867, 16484, 5225, 7817, 81851, 91004]),
  (168, [3200, 16484, 5225, 7817, 11867, 14459]),
  (169, [16484, 81932, 149648, 66866, 103640, 34142]),
  (170, [16484, 81932, 152240, 64274, 106232, 31550]),
  (171, [3200, 16484, 73508, 110282, 64274, 106232]),
  (172, [3200, 16484, 70916, 112874, 66866, 103640]),
  (173, [16484, 90599, 93191, 5225, 7817, 81932]),
  (174, [16482, 16484, 5223, 7815, 5225, 7817])]

/-- entry `(Hexagonal, 12)` of `SG_NUM_TO_FULL_MATRICES` (src/data/spacegroup.rs:244-580). -/
def sgTableHexagonal12 : List (Nat × List Nat) := [
  (162, [14457, 16484, 7817, 5225, 5547, 3119, 12272, 7410, 16563, 14135, 11865, 3198]),
  (163, [14457, 92867, 16484, 7817, 5225, 84279, 11865, 3198, 81851, 91004, 86142, 95295]),
  (164, [14457, 16484, 7817, 5225, 3117, 12270, 5549, 7412, 16565, 14133, 11865, 3198]),
  (165, [86144, 95297, 92865, 14457, 16484, 84281, 7817, 5225, 11865, 81849, 91002, 3198]),
  (175, [3200, 16482, 16484, 7815, 5223, 5225, 7817, 11865, 14457, 11867, 14459, 3198]),
  (176, [14457, 16484, 93191, 90599, 7817, 5225, 81932, 95214, 83955, 86547, 11865, 3198]),
  (177, [3200, 16484, 5225, 7817, 5547, 3117, 12270, 7410, 16563, 14133, 11867, 14459]),
  (178, [16484, 145191, 81932, 149648, 66866, 14133, 36246, 71319, 103640, 101532, 84279, 34142]),
  (179, [16484, 84279, 154344, 81932, 152240, 64274, 14133, 62166, 27093, 106232, 110685, 31550]),
  (180, [3200, 105825, 16484, 73508, 110282, 5547, 64274, 14133, 62166, 106232, 75612, 110685]),
  (181, [3200, 114978, 16484, 70916, 112874, 5547, 66866, 14133, 71319, 103640, 66459, 101532]),
  (182, [16484, 90599, 93191, 5225, 7817, 81932, 3117, 12270, 14133, 84279, 86142, 95295]),
  (183, [3200, 16484, 5225, 7817, 5549, 3119, 12272, 7412, 16565, 14135, 11867, 14459]),
  (184, [3200, 95297, 86144, 92867, 16484, 81851, 5225, 7817, 84281, 11867, 14459, 91004]),
  (185, [86144, 95297, 16484, 90599, 93191, 7817, 5225, 81932, 3119, 12272, 14135, 84281]),
  (186, [92867, 16484, 90599, 93191, 5225, 7817, 81932, 5549, 7412, 16565, 81851, 91004]),
  (187, [16482, 16484, 5223, 7815, 5225, 7817, 5547, 5549, 7410, 16563, 7412, 16565]),
  (188, [86144, 95297, 16484, 5225, 7817, 5547, 95214, 7410, 83955, 86547, 16563, 84281]),
  (189, [16482, 16484, 5223, 7815, 5225, 7817, 3117, 12270, 3119, 12272, 14133, 14135]),
  (190, [92867, 16484, 5225, 7817, 3117, 95214, 12270, 83955, 86547, 14133, 81851, 91004])]

/-- entry `(Hexagonal, 24)` of `SG_NUM_TO_FULL_MATRICES` (src/data/spacegroup.rs:244-580). -/
def sgTableHexagonal24 : List (Nat × List Nat) := [
  (191, [3200, 7815, 7817, 5547, 3117, 5549, 3119, 16563, 14133, 16565, 14135, 11865, 11867, 
      16482, 16484, 5223, 5225, 12270, 12272, 7410, 7412, 14457, 14459, 3198]),
  (192, [3200, 86144, 7815, 7817, 84279, 81849, 84281, 81851, 95295, 92865, 95297, 92867, 11865, 
      3198, 11867, 16482, 16484, 5223, 5225, 14457, 91002, 14459, 91004, 86142]),
  (193, [86144, 93191, 7817, 81932, 86547, 5547, 3119, 16563, 14135, 84281, 81849, 92865, 95297, 
      11865, 16484, 90599, 5225, 95214, 12272, 7410, 83955, 14457, 91002, 3198]),
  (194, [93191, 7817, 81932, 86547, 5549, 3117, 14133, 16565, 84279, 81851, 95295, 92867, 11865, 
      3198, 16484, 90599, 5225, 12270, 95214, 83955, 7412, 14457, 91004, 86142])]

/-- entry `(Rhombohedral, 3)` of `SG_NUM_TO_FULL_MATRICES` (src/data/spacegroup.rs:244-580). -/
def sgTableRhombohedral3 : List (Nat × List Nat) := [
  (146, [10816, 12064, 16484])]

/-- entry `(Rhombohedral, 6)` of `SG_NUM_TO_FULL_MATRICES` (src/data/spacegroup.rs:244-580). -/
def sgTableRhombohedral6 : List (Nat × List Nat) := [
  (148, [12064, 10816, 7618, 8866, 16484, 3198]),
  (155, [12064, 10816, 16484, 7410, 3250, 9022]),
  (160, [12064, 10816, 16484, 10660, 16432, 12272]),
  (161, [12064, 10816, 16484, 5763868, 5758096, 5759708])]

/-- entry `(Rhombohedral, 12)` of `SG_NUM_TO_FULL_MATRICES` (src/data/spacegroup.rs:244-580). -/
def sgTableRhombohedral12 : List (Nat × List Nat) := [
  (166, [10816, 12064, 8866, 7618, 16484, 10660, 16432, 12272, 3250, 7410, 3198, 9022]),
  (167, [10816, 12064, 8866, 7618, 16484, 5759708, 5756458, 5758096, 5750686, 5754846, 5763868, 
      3198])]

/-- entry `(Cubic, 12)` of `SG_NUM_TO_FULL_MATRICES` (src/data/spacegroup.rs:244-580). -/
def sgTableCubic12 : List (Nat × List Nat) := [
  (195, [3360, 10816, 3200, 16320, 16484, 12064, 8872, 9352, 11992, 7636, 10324, 7672]),
  (196, [10816, 16416, 12258, 12064, 16484, 608, 454, 394, 10638, 10228, 16054, 11678]),
  (197, [15648, 10816, 5216, 12064, 16484, 7814, 14158, 3058, 8308, 9174, 11514, 3838]),
  (198, [5125216, 5685024, 10816, 12064, 716260, 16484, 5120780, 711948, 5679028, 5126452, 
      717940, 5680696]),
  (199, [716896, 10816, 12064, 16484, 5129094, 5676518, 5121418, 713804, 724236, 5671762, 
      5677878, 5131738])]

/-- entry `(Cubic, 24)` of `SG_NUM_TO_FULL_MATRICES` (src/data/spacegroup.rs:244-580). -/
def sgTableCubic24 : List (Nat × List Nat) := [
  (200, [3200, 9352, 7690, 9358, 12046, 3360, 12064, 3362, 8866, 8872, 10810, 10816, 16320, 
      16322, 7618, 7636, 10324, 11992, 10330, 16482, 16484, 12010, 7672, 3198]),
  (201, [3200, 9352, 5750798, 5756302, 3360, 12064, 5758246, 8872, 5763758, 5755054, 10816, 
      16320, 5757766, 5763918, 7636, 10324, 5759446, 11992, 16484, 5750634, 5759482, 
      5755126, 7672, 5756794]),
  (202, [7424, 19074, 394, 10638, 19228, 11678, 16416, 12064, 8866, 3628, 16054, 10816, 3266, 
      7618, 8004, 454, 9044, 19288, 608, 12258, 16484, 9454, 10228, 3198]),
  (203, [394, 10638, 2892946, 2882584, 11678, 16416, 12064, 2877346, 16054, 2876984, 2881336, 
      2881722, 10816, 454, 2882762, 2893006, 608, 12258, 2883172, 16484, 2876916, 10228, 
      2881142, 2892792]),
  (204, [14466, 7814, 10508, 5524, 15648, 12064, 8866, 10816, 7618, 4034, 14158, 9174, 3198, 
      11868, 5216, 16484, 15844, 8168, 11374, 16624, 3058, 8308, 11514, 3838]),
  (205, [5672066, 711948, 5120780, 5129626, 5685024, 12064, 8866, 724910, 5126452, 5679028, 
      5680696, 10816, 7618, 5128390, 718918, 720598, 5125216, 716260, 16484, 5676394, 
      5134062, 5678062, 717940, 3198]),
  (206, [5129094, 5121418, 724236, 5123104, 12064, 8866, 712622, 5677878, 5680572, 10816, 7618, 
      713804, 5685328, 5671762, 5131738, 719962, 716896, 16484, 5676518, 5679212, 
      723054, 5133424, 5125748, 3198]),
  (207, [3200, 10498, 9352, 11786, 10642, 3360, 12064, 8872, 16426, 3250, 9022, 16320, 10816, 
      10324, 7636, 11992, 7898, 16484, 12270, 3310, 7410, 9202, 7672, 16378]),
  (208, [3200, 9352, 5763862, 5750686, 12064, 3360, 8872, 5756458, 10816, 16320, 5755334, 10324, 
      7636, 11992, 5759706, 5750746, 5754846, 5756638, 16484, 5763814, 5757934, 5759222, 
      7672, 5758078]),
  (209, [19072, 394, 3212, 10638, 11678, 12064, 16416, 19236, 3630, 3250, 8882, 16054, 7996, 
      9022, 10816, 454, 19282, 7640, 608, 12258, 16484, 7410, 9460, 10228]),
  (210, [2876930, 394, 10638, 2892954, 11678, 16416, 12064, 2877348, 2882600, 2876968, 2881714, 
      2882740, 16054, 10816, 454, 2893000, 2881358, 608, 12258, 16484, 2881128, 2883178, 
      10228, 2892790]),
  (211, [11140, 7814, 12064, 15648, 12076, 5550, 3250, 15922, 16572, 9022, 10816, 14158, 8402, 
      9174, 5216, 16484, 14440, 10352, 3058, 7410, 3956, 8308, 11514, 3838]),
  (212, [5120780, 711948, 3598732, 12064, 5685024, 2876968, 5679028, 5126452, 2882740, 5680696, 
      10816, 3594576, 8558800, 8552920, 7999196, 8554208, 5125216, 16484, 716260, 
      2881128, 7994608, 717940, 8000500, 3592948]),
  (213, [2962948, 7923208, 5120780, 711948, 2964236, 8624404, 12064, 5685024, 7928992, 8630176, 
      3511472, 5679028, 5126452, 5680696, 10816, 3506884, 3512776, 8628564, 5125216, 
      7924836, 16484, 716260, 717940, 2968828]),
  (214, [5049988, 5129094, 5121418, 724236, 641932, 646428, 5750686, 12064, 5756458, 5677878, 
      84282, 94654, 10816, 713804, 640208, 5671762, 5131738, 5754846, 87134, 716896, 
      16484, 5676518, 5053288, 5042804]),
  (215, [3200, 11784, 9352, 3360, 12064, 10660, 8872, 16432, 3256, 16320, 10816, 9040, 10324, 
      7636, 11992, 7896, 9184, 16484, 3304, 12272, 10480, 7412, 16372, 7672]),
  (216, [394, 12042, 10638, 400, 11678, 12064, 16416, 10660, 11686, 10800, 16432, 16052, 16054, 
      446, 10816, 454, 16470, 608, 12258, 610, 16484, 10222, 12272, 10228]),
  (217, [7814, 11280, 12064, 15648, 10660, 3110, 16432, 3760, 14132, 7606, 10816, 11514, 14158, 
      9174, 8542, 5216, 16484, 15726, 12272, 3058, 9330, 8308, 5242, 3838]),
  (218, [3200, 9352, 5758096, 5763868, 3360, 12064, 5750692, 8872, 5756476, 16320, 10816, 
      5755332, 5756620, 5750740, 10324, 7636, 11992, 5759708, 5757916, 5754848, 5763808, 
      16484, 5759220, 7672]),
  (219, [394, 10638, 5758096, 5759122, 5763868, 5758236, 11678, 12064, 16416, 5763488, 5747882, 
      16054, 10816, 5763906, 454, 5748046, 5757658, 5759708, 608, 12258, 16484, 10228, 
      5759478, 5747836]),
  (220, [5129094, 632966, 5121418, 724236, 5758096, 637462, 5763868, 90012, 12064, 5677878, 
      82492, 10816, 92864, 713804, 5671762, 639186, 5131738, 5759708, 5047390, 716896, 
      16484, 5676518, 5054574, 5044090])]

/-- entry `(Cubic, 48)` of `SG_NUM_TO_FULL_MATRICES` (src/data/spacegroup.rs:244-580). -/
def sgTableCubic48 : List (Nat × List Nat) := [
  (221, [3200, 10498, 9352, 11784, 7690, 11786, 9358, 12046, 10642, 3360, 12064, 8866, 3362, 
      10660, 8872, 16426, 16432, 3250, 3256, 10810, 9022, 16320, 10816, 7618, 16322, 
      9040, 10324, 7636, 11992, 7896, 7898, 10330, 9184, 16482, 16484, 3304, 12010, 
      12270, 3310, 12272, 10480, 7410, 9202, 16372, 7412, 7672, 16378, 3198]),
  (222, [3200, 10498, 9352, 11786, 5756302, 5750798, 5758096, 10642, 5763868, 5756794, 3360, 
      12064, 5750692, 5758246, 8872, 16426, 5755054, 5763758, 3250, 5756476, 9022, 
      16320, 10816, 5755332, 5757766, 5756620, 5763918, 5750740, 10324, 5759446, 7636, 
      11992, 7898, 5759708, 5757916, 5763808, 5754848, 16484, 5750634, 12270, 3310, 
      5759482, 7410, 9202, 5759220, 5755126, 7672, 16378]),
  (223, [3200, 9352, 7690, 9358, 12046, 5758096, 5763862, 5763868, 5750686, 3360, 12064, 8866, 
      3362, 5750692, 8872, 5756458, 10810, 5756476, 16320, 10816, 7618, 16322, 5755332, 
      5755334, 5756620, 5750740, 10324, 7636, 11992, 5759706, 10330, 5759708, 5757916, 
      5754846, 5750746, 5763808, 5756638, 3198, 16482, 16484, 5754848, 5763814, 12010, 
      5757934, 5759220, 5759222, 7672, 5758078]),
  (224, [3200, 9352, 11784, 5756302, 5750798, 5763862, 5750686, 3360, 12064, 10660, 5758246, 
      8872, 5756458, 5755054, 5763758, 16432, 3256, 16320, 10816, 5757766, 5755334, 
      5763918, 9040, 10324, 7636, 5759446, 11992, 7896, 5759706, 5750746, 5754846, 
      5756638, 9184, 16484, 5763814, 3304, 5750634, 5757934, 12272, 10480, 5759482, 
      16372, 7412, 5755126, 5759222, 7672, 5756794, 5758078]),
  (225, [19072, 7424, 19074, 394, 12042, 3212, 10638, 400, 19228, 11678, 16416, 12064, 8866, 
      10660, 19236, 11686, 3628, 3630, 10800, 16432, 8882, 3250, 16052, 16054, 7996, 
      9022, 446, 10816, 7618, 3266, 8004, 454, 19282, 9044, 16470, 19288, 7640, 608, 
      12258, 610, 16484, 9454, 10222, 12272, 7410, 9460, 10228, 3198]),
  (226, [7424, 19074, 394, 10638, 5758096, 5766672, 5759122, 5751066, 5763868, 5758236, 19228, 
      5756318, 16416, 5763488, 8866, 11678, 5750686, 12064, 5755432, 5756458, 5747882, 
      3628, 16054, 5766718, 10816, 7618, 3266, 8004, 5763906, 454, 5755076, 5748046, 
      9044, 19288, 5757658, 5759708, 5754846, 5756896, 608, 12258, 16484, 5766508, 9454, 
      10228, 5759478, 5750648, 5747836, 3198]),
  (227, [2876930, 394, 12042, 10638, 400, 2892946, 2882584, 2892954, 11678, 16416, 12064, 
      2877346, 10660, 2877348, 11686, 2882600, 2876968, 10800, 16432, 2881714, 16052, 
      2882740, 16054, 2881336, 2876984, 2881722, 446, 10816, 454, 2893000, 2882762, 
      2893006, 2881358, 16470, 608, 12258, 610, 16484, 2883172, 2881128, 2883178, 10222, 
      12272, 10228, 2876916, 2892790, 2881142, 2892792]),
  (228, [2876930, 8630020, 394, 8624782, 10638, 5758096, 5759122, 2892954, 5763868, 5758236, 
      11678, 16416, 5763488, 12064, 8628772, 8624420, 8629158, 2877348, 2882600, 
      2876968, 5747882, 2881714, 2882740, 8630198, 16054, 8640442, 10816, 5763906, 454, 
      2893000, 5748046, 2881358, 8630608, 5757658, 5759708, 608, 8624352, 12258, 
      8628578, 8640228, 16484, 2881128, 2883178, 10228, 5759478, 2892790, 5747836, 
      8640382]),
  (229, [14466, 11140, 7814, 5242, 10508, 11280, 5524, 12064, 15648, 8866, 10660, 3110, 12076, 
      5550, 16432, 3760, 15922, 3250, 14132, 7606, 16572, 9022, 10816, 7618, 4034, 
      14158, 8402, 9174, 3198, 11868, 8542, 5216, 16484, 15844, 14440, 8168, 11374, 
      15726, 12272, 16624, 3058, 7410, 3956, 8308, 10352, 9330, 11514, 3838]),
  (230, [5049988, 5129094, 632966, 5121418, 641932, 724236, 5758096, 637462, 5763868, 90012, 
      646428, 5750686, 12064, 5123104, 8866, 5756458, 712622, 5677878, 84282, 5680572, 
      82492, 94654, 10816, 92864, 7618, 713804, 5685328, 640208, 5671762, 639186, 
      719962, 5131738, 5759708, 87134, 5047390, 716896, 5754846, 16484, 5676518, 
      5053288, 5679212, 723054, 5054574, 5133424, 5042804, 5125748, 5044090, 3198])]

/-- `SG_NUM_TO_FULL_MATRICES` (src/data/spacegroup.rs:244-580): lattice system ↦ number of operations ↦
space-group number ↦ encoded operations. -/
def sgNumToFullMatrices : List (LatticeSystem × List (Nat × List (Nat × List Nat))) := [
  (.Triclinic, [(1, sgTableTriclinic1), (2, sgTableTriclinic2)]),
  (.Monoclinic, [(2, sgTableMonoclinic2), (4, sgTableMonoclinic4)]),
  (.Orthorhombic, [(4, sgTableOrthorhombic4), (8, sgTableOrthorhombic8)]),
  (.Tetragonal, [(4, sgTableTetragonal4), (8, sgTableTetragonal8), (16, sgTableTetragonal16)]),
  (.Hexagonal, [(3, sgTableHexagonal3), (6, sgTableHexagonal6), (12, sgTableHexagonal12), (24, sgTableHexagonal24)]),
  (.Rhombohedral, [(3, sgTableRhombohedral3), (6, sgTableRhombohedral6), (12, sgTableRhombohedral12)]),
  (.Cubic, [(12, sgTableCubic12), (24, sgTableCubic24), (48, sgTableCubic48)])]

end CrystSymm
