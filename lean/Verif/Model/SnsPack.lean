import Verif.Basic
/-! Model of the packing of the second stage scale factor indices. -/

namespace Lc3

/-- encoder/spectral_noise_shaping.rs 526-551 (`index_joint_j`); the pulse indices are arguments. -/
def jointIndex (shapeJ gind idxa idxb lsIndb : Nat) : Nat :=
  let lsbGain := gind &&& 1
  if shapeJ = 0 then (2 * idxb + lsIndb + 2) * 2390004 + idxa
  else if shapeJ = 1 then lsbGain * 2390004 + idxa
  else if shapeJ = 2 then idxa
  else 15158272 + lsbGain + 2 * idxa

end Lc3
