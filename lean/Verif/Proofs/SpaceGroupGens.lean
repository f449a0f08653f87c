/-! # Generators of the tabulated space groups

GENERATED by gen_sggens.py; checked, not trusted. -/

set_option autoImplicit false

namespace CrystSymm

/-- space-group number ↦ codes of some operations that generate it. -/
def sgGens : List (Nat × List Nat) := [
  (1, [16484]),
  (2, [3198]),
  (3, [3360]),
  (4, [633216]),
  (5, [7410]),
  (6, [16322]),
  (7, [95054]),
  (8, [12272]),
  (9, [91004]),
  (10, [3360, 16322]),
  (11, [633216, 646178]),
  (12, [12272, 7410]),
  (13, [3198, 82092]),
  (14, [3198, 711948]),
  (15, [3198, 91004]),
  (16, [3360, 3200]),
  (17, [16320, 82092]),
  (18, [5685024, 3200]),
  (19, [5685024, 5120780]),
  (20, [12270, 81932]),
  (21, [3200, 7410]),
  (22, [394, 10228]),
  (23, [11514, 8308]),
  (24, [716896, 5671762]),
  (25, [3200, 16322]),
  (26, [3362, 81932]),
  (27, [3200, 82094]),
  (28, [3200, 5055170]),
  (29, [5055170, 81932]),
  (30, [3200, 724910]),
  (31, [3362, 5120780]),
  (32, [3200, 5685026]),
  (33, [5685026, 81932]),
  (34, [3200, 5763758]),
  (35, [12272, 7412]),
  (36, [7412, 91004]),
  (37, [91004, 3200]),
  (38, [16432, 3362]),
  (39, [725020, 3310]),
  (40, [5055280, 5042210]),
  (41, [5763868, 3310]),
  (42, [19288, 12258]),
  (43, [12258, 2883172]),
  (44, [16624, 11514]),
  (45, [5685328, 11514]),
  (46, [719962, 725212]),
  (47, [3360, 3200, 16482]),
  (48, [3360, 3200, 5750634]),
  (49, [3200, 16482, 82092]),
  (50, [3360, 3200, 5685186]),
  (51, [3360, 5042048, 5055330]),
  (52, [5042048, 5055330, 724908]),
  (53, [16320, 3362, 5120940]),
  (54, [5042048, 5055330, 82092]),
  (55, [5672064, 5685024, 16482]),
  (56, [5671904, 5685186, 711948]),
  (57, [646176, 633218, 711948]),
  (58, [3200, 16482, 5763756]),
  (59, [5672064, 5685024, 5685186]),
  (60, [5685024, 5672066, 5750636]),
  (61, [5685024, 5672066, 711948]),
  (62, [633216, 646178, 5763756]),
  (63, [81932, 12270, 95214]),
  (64, [5750636, 12270, 5763918]),
  (65, [3200, 16482, 12270]),
  (66, [3200, 86144, 16482]),
  (67, [5671904, 5685186, 12270]),
  (68, [3200, 5754848, 5750634]),
  (69, [7424, 12258, 394]),
  (70, [12258, 2883172, 394]),
  (71, [8168, 11374, 16624]),
  (72, [8168, 5680078, 5685328]),
  (73, [716896, 5129094, 5685328]),
  (74, [5125888, 5129094, 16624]),
  (75, [7898]),
  (76, [47264]),
  (77, [86630]),
  (78, [51152]),
  (79, [15922]),
  (80, [7964008]),
  (81, [7896]),
  (82, [3760]),
  (83, [16482, 11784]),
  (84, [16482, 86628]),
  (85, [5685186, 11784]),
  (86, [5755334, 11784]),
  (87, [8168, 12076]),
  (88, [7960100, 7964008]),
  (89, [16320, 11786]),
  (90, [5672064, 5680490]),
  (91, [3360, 47264]),
  (92, [5715968, 5711430]),
  (93, [3360, 86630]),
  (94, [5755334, 5750796]),
  (95, [3360, 125508]),
  (96, [5724390, 5794700]),
  (97, [12076, 3058]),
  (98, [7964008, 7954990]),
  (99, [3362, 11786]),
  (100, [5672066, 11786]),
  (101, [86630, 95054]),
  (102, [5755334, 5763758]),
  (103, [86144, 11786]),
  (104, [5754848, 11786]),
  (105, [86144, 16322]),
  (106, [5754848, 5685026]),
  (107, [12076, 15726]),
  (108, [12076, 5684430]),
  (109, [7964008, 7967658]),
  (110, [7964008, 3558666]),
  (111, [16320, 11784]),
  (112, [86144, 11784]),
  (113, [5672064, 11784]),
  (114, [5754848, 11784]),
  (115, [3362, 11784]),
  (116, [11784, 82094]),
  (117, [5672066, 11784]),
  (118, [11784, 5750798]),
  (119, [11374, 3760]),
  (120, [5680078, 3760]),
  (121, [15726, 3760]),
  (122, [7967658, 7954990]),
  (123, [16320, 16482, 11784]),
  (124, [86144, 16482, 11784]),
  (125, [16320, 5685186, 5680488]),
  (126, [16320, 5754848, 11786]),
  (127, [5685024, 16482, 11784]),
  (128, [5754848, 16482, 11784]),
  (129, [5685024, 5685186, 11784]),
  (130, [5754848, 5685186, 11784]),
  (131, [3360, 3362, 86628]),
  (132, [16482, 86628, 82092]),
  (133, [86144, 5685026, 11784]),
  (134, [3360, 5755334, 11784]),
  (135, [5672064, 5672066, 86628]),
  (136, [16482, 5755332, 5750796]),
  (137, [5754848, 16322, 11784]),
  (138, [5672064, 5755334, 11784]),
  (139, [8168, 12076, 11374]),
  (140, [8168, 12076, 5680078]),
  (141, [7960100, 7964008, 7967658]),
  (142, [7960100, 7964008, 3558666]),
  (143, [7817]),
  (144, [103640]),
  (145, [106232]),
  (146, [10816]),
  (147, [14457]),
  (148, [7618]),
  (149, [5225, 5547]),
  (150, [7817, 3117]),
  (151, [105825, 66866]),
  (152, [112548, 12270]),
  (153, [64274, 16563]),
  (154, [12270, 64274]),
  (155, [12064, 7410]),
  (156, [7817, 5549]),
  (157, [7817, 3119]),
  (158, [86144, 95297]),
  (159, [92867, 5225]),
  (160, [12064, 10660]),
  (161, [12064, 5763868]),
  (162, [14457, 5547]),
  (163, [14457, 92867]),
  (164, [14457, 3117]),
  (165, [86144, 92865]),
  (166, [8866, 10660]),
  (167, [8866, 5759708]),
  (168, [11867]),
  (169, [149648]),
  (170, [152240]),
  (171, [73508]),
  (172, [70916]),
  (173, [90599]),
  (174, [5223]),
  (175, [3200, 7815]),
  (176, [14457, 93191]),
  (177, [5547, 3117]),
  (178, [145191, 149648]),
  (179, [84279, 152240]),
  (180, [105825, 73508]),
  (181, [114978, 70916]),
  (182, [90599, 3117]),
  (183, [5549, 3119]),
  (184, [95297, 92867]),
  (185, [86144, 90599]),
  (186, [92867, 90599]),
  (187, [5223, 5547]),
  (188, [86144, 5547]),
  (189, [5223, 3117]),
  (190, [92867, 3117]),
  (191, [3200, 7815, 5547]),
  (192, [3200, 86144, 7815]),
  (193, [86144, 93191, 86547]),
  (194, [93191, 86547, 5549]),
  (195, [3360, 10816]),
  (196, [10816, 16416]),
  (197, [15648, 10816]),
  (198, [5125216, 5685024]),
  (199, [716896, 10816]),
  (200, [3200, 7690]),
  (201, [3200, 5756302]),
  (202, [7424, 19074]),
  (203, [394, 2892946]),
  (204, [14466, 10508]),
  (205, [5672066, 5129626]),
  (206, [5129094, 5123104]),
  (207, [10498, 11786]),
  (208, [9352, 5763862]),
  (209, [19072, 3212]),
  (210, [2876930, 11678]),
  (211, [11140, 7814]),
  (212, [3598732, 12064]),
  (213, [2962948, 2964236]),
  (214, [5049988, 5121418]),
  (215, [11784, 9352]),
  (216, [12042, 10638]),
  (217, [7814, 11280]),
  (218, [9352, 5758096]),
  (219, [10638, 5759122]),
  (220, [632966, 724236]),
  (221, [10498, 11784]),
  (222, [10498, 5756302]),
  (223, [7690, 5758096]),
  (224, [11784, 5756302]),
  (225, [19072, 19074]),
  (226, [19074, 5758096]),
  (227, [2876930, 12042]),
  (228, [2876930, 8630020]),
  (229, [14466, 11140]),
  (230, [5049988, 5758096])]

end CrystSymm
