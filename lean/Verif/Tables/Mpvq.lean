/-! Generated by tools/gen_tables.py from /repo/src/tables/spec_noise_shape_quant_tables.rs. Do not edit. -/

namespace Lc3.Tables

/-- `SNS_GAIN_MSB_BITS`, tables/spec_noise_shape_quant_tables.rs lines 287-287 -/
def SNS_GAIN_MSB_BITS : List Nat :=
  [1, 1, 2, 2]

/-- `SNS_GAIN_LSB_BITS`, tables/spec_noise_shape_quant_tables.rs lines 288-288 -/
def SNS_GAIN_LSB_BITS : List Nat :=
  [0, 1, 0, 1]

/-- `MPVQ_OFFSETS`, tables/spec_noise_shape_quant_tables.rs lines 290-307 -/
def MPVQ_OFFSETS : List (List Nat) :=
  [[0, 1, 1, 1, 1, 1, 1, 1, 1, 1, 1],
   [0, 1, 3, 5, 7, 9, 11, 13, 15, 17, 19],
   [0, 1, 5, 13, 25, 41, 61, 85, 113, 145, 181],
   [0, 1, 7, 25, 63, 129, 231, 377, 575, 833, 1159],
   [0, 1, 9, 41, 129, 321, 681, 1289, 2241, 3649, 5641],
   [0, 1, 11, 61, 231, 681, 1683, 3653, 7183, 13073, 22363],
   [0, 1, 13, 85, 377, 1289, 3653, 8989, 19825, 40081, 75517],
   [0, 1, 15, 113, 575, 2241, 7183, 19825, 48639, 108545, 224143],
   [0, 1, 17, 145, 833, 3649, 13073, 40081, 108545, 265729, 598417],
   [0, 1, 19, 181, 1159, 5641, 22363, 75517, 224143, 598417, 1462563],
   [0, 1, 21, 221, 1561, 8361, 36365, 134245, 433905, 1256465, 3317445],
   [0, 1, 23, 265, 2047, 11969, 56695, 227305, 795455, 2485825, 7059735],
   [0, 1, 25, 313, 2625, 16641, 85305, 369305, 1392065, 4673345, 14218905],
   [0, 1, 27, 365, 3303, 22569, 124515, 579125, 2340495, 8405905, 27298155],
   [0, 1, 29, 421, 4089, 29961, 177045, 880685, 3800305, 14546705, 50250765],
   [0, 1, 31, 481, 4991, 39041, 246047, 1303777, 5984767, 24331777, 89129247]]

end Lc3.Tables
