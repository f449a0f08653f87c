import Mathlib.Data.Nat.Notation

set_option autoImplicit false

/-! # Operations of the 32 point groups, as codes

GENERATED by gen_pgops.py from the generator table; a hint for the proofs only.  Each code after the
generators is a generator times an earlier code. -/

namespace CrystSymm

/-- point-group number, generator codes, operation codes. -/
def pgCodes : List (ℕ × List ℕ × List ℕ) := [
  (1, [16484], [16484]),
  (2, [16484, 3198], [16484, 3198]),
  (3, [16484, 7817, 3198], [16484, 7817, 3198, 5225, 11865, 14457]),
  (4, [16484, 7817, 12270, 3198], [16484, 7817, 12270, 3198, 5225, 14133, 11865, 3117, 7412, 14457, 5549, 16565]),
  (5, [16484, 11784], [16484, 11784, 3200, 7896]),
  (6, [16484, 3360, 11784], [16484, 3360, 11784, 12272, 7412, 3200, 7896, 16320]),
  (7, [16484, 10816, 11784, 12272], [16484, 10816, 11784, 12272, 12064, 16372, 16432, 9184, 3200, 3360, 10660, 16320, 10480, 7896, 8872, 9352, 10324, 3256, 11992, 7412, 3304, 7636, 7672, 9040]),
  (8, [16484, 16482, 7817], [16484, 16482, 7817, 7815, 5225, 5223]),
  (9, [16484, 16482, 7412, 7817], [16484, 16482, 7412, 7817, 7410, 7815, 16565, 5549, 5225, 16563, 5547, 5223]),
  (10, [16484, 3360], [16484, 3360]),
  (11, [16484, 3360, 3198], [16484, 3360, 3198, 16322]),
  (12, [16484, 3200, 3360], [16484, 3200, 3360, 16320]),
  (13, [16484, 3360, 10816], [16484, 3360, 10816, 8872, 9352, 12064, 10324, 11992, 7636, 7672, 16320, 3200]),
  (14, [16484, 7817], [16484, 7817, 5225]),
  (15, [16484, 7817, 12270], [16484, 7817, 12270, 5225, 14133, 3117]),
  (16, [16484, 7817, 7412], [16484, 7817, 7412, 5225, 5549, 16565]),
  (17, [16484, 7898], [16484, 7898, 3200, 11786]),
  (18, [16484, 7898, 3198], [16484, 7898, 3198, 3200, 11784, 11786, 16482, 7896]),
  (19, [16484, 3360, 7898, 3198], [16484, 3360, 7898, 3198, 7410, 16322, 12270, 3200, 11784, 11786, 16320, 12272, 7412, 16482, 7896, 3362]),
  (20, [16484, 3360, 7898], [16484, 3360, 7898, 7410, 12270, 3200, 11786, 16320]),
  (21, [16484, 10816, 7898], [16484, 10816, 7898, 12064, 3310, 10498, 3200, 9202, 11786, 8872, 16426, 10324, 16378, 7636, 10642, 11992, 9352, 7672, 12270, 16320, 3360, 3250, 9022, 7410]),
  (22, [16484, 7898, 16322], [16484, 7898, 16322, 3200, 7412, 12272, 11786, 3362]),
  (23, [16484, 3200, 7817], [16484, 3200, 7817, 11867, 5225, 14459]),
  (24, [16484, 3200, 3198, 7817], [16484, 3200, 3198, 7817, 16482, 11867, 11865, 5225, 7815, 14459, 14457, 5223]),
  (25, [16484, 3200, 12270, 7817, 3198], [16484, 3200, 12270, 7817, 3198, 7410, 11867, 16482, 3117, 7412, 14133, 5225, 11865, 16563, 12272, 5547, 14459, 7815, 16565, 5549, 14457, 3119, 14135, 5223]),
  (26, [16484, 3200, 12270, 7817], [16484, 3200, 12270, 7817, 7410, 11867, 3117, 14133, 5225, 16563, 5547, 14459]),
  (27, [16484, 3200, 7412, 7817], [16484, 3200, 7412, 7817, 12272, 11867, 16565, 5549, 5225, 3119, 14135, 14459]),
  (28, [16484, 16322], [16484, 16322]),
  (29, [16484, 3360, 10816, 3198], [16484, 3360, 10816, 3198, 8872, 16322, 9352, 12064, 8866, 10324, 11992, 10810, 7636, 10330, 7672, 7618, 9358, 7690, 16320, 12046, 3200, 12010, 3362, 16482]),
  (30, [16484, 10816, 7898, 3198, 12272], [16484, 10816, 7898, 3198, 12272, 12064, 3310, 8866, 16432, 10498, 3200, 11784, 16322, 7410, 10660, 3362, 9202, 7618, 11786, 8872, 16372, 10330, 3250, 9358, 16426, 9184, 7690, 10324, 16482, 7412, 3360, 10810, 9022, 16320, 16378, 7636, 10480, 12010, 10642, 7896, 11992, 3256, 9352, 12046, 9040, 7672, 3304, 12270]),
  (31, [16484, 3200, 16322], [16484, 3200, 16322, 3362]),
  (32, [16484, 3200, 3360, 3198], [16484, 3200, 3360, 3198, 16320, 16482, 16322, 3362])]

end CrystSymm
