import Verif.Props.EncLtpf
/-!
# C20: the error of the pitch index seen from outside

The complete long term post filter of the encoder, in `f32`, evaluated by the kernel on two frames. The steps of the two frames are
evaluated one by one, with the values between them written down (one evaluation of everything needs 12 GB of memory).
-/

namespace Lc3
open Scalar

/-- 7.5 ms at 16 kHz with one pulse -/
def pulseFrame (pos : Nat) : List Int := (List.range 120).map fun i => if i = pos then 10000 else 0

/-- the numbers `n / 2 ^ e` -/
def dyadics (l : List (Int × Nat)) : List F32 := l.map fun p => .fin (mkRat p.1 (2 ^ p.2))

/-- the first frame, resampled -/
def frameY1 : List F32 := dyadics (
    List.replicate 9 (0, 0) ++ [(9952617, 68), (-10304443, 67), (1078797, 63), (-6297641, 65), (16554465, 66), (-4984823, 64),
    (11110627, 65), (8197721, 10), (11110627, 65), (-4984823, 64), (16554465, 66), (-6297641, 65), (1078797, 63), (-10304443, 67),
    (9952617, 68)] ++ List.replicate 72 (0, 0))

/-- .. and filtered -/
def frameZ1 : List F32 := dyadics (
    List.replicate 9 (0, 0) ++ [(9781379, 68), (-10296891, 67), (8574255, 66), (-786387, 62), (8249617, 65), (-311489, 60),
    (11092979, 65), (8056677, 10), (-69905, 8), (-274687, 10), (-67439, 8), (-2069, 3), (-129963, 9), (-31879, 7), (-7817, 5),
    (-61325, 8), (-60111, 8), (-29455, 7), (-28855, 7), (-28259, 7), (-6917, 5), (-6769, 5), (-13247, 6), (-25913, 7), (-25339,
    7), (-12383, 6), (-24203, 7), (-11819, 6), (-23083, 7), (-11267, 6), (-21989, 7), (-2681, 4), (-5229, 5), (-10193, 6),
    (-19863, 7), (-9673, 6), (-4709, 5), (-9167, 6), (-8917, 6), (-4337, 5), (-4215, 5), (-8191, 6), (-7955, 6), (-7723, 6),
    (-3747, 5), (-7269, 6), (-7045, 6), (-1707, 4), (-6611, 6), (-6401, 6), (-6191, 6), (-1497, 4), (-723, 3), (-5587, 6), (-337,
    2), (-5201, 6), (-2507, 5), (-1207, 4), (-581, 3), (-2235, 5), (-4297, 6), (-2063, 5), (-1979, 5), (-3793, 6), (-3635, 6),
    (-869, 4), (-1661, 5), (-793, 4), (-3025, 6), (-2879, 6), (-1369, 5), (-325, 3), (-617, 4), (-1167, 5), (-2207, 6), (-2081,
    6), (-3917, 7), (-1839, 6), (-1723, 6), (-3219, 7), (-1499, 6), (-1391, 6), (-161, 3), (-1185, 6), (-2173, 7), (-989, 6),
    (-14, 0)])

/-- the 6.4 kHz signal after the first frame -/
def frameX1 : List F32 := dyadics (
    List.replicate 140 (0, 0) ++ [(9678059, 71), (8611267, 70), (2350169, 68), (3212589, 68), (3723131, 11), (13754415, 13),
    (-8632379, 15), (-16635825, 16), (-500329, 11), (-15389959, 16), (-1846887, 13), (-7083359, 15), (-3391563, 14), (-3243723,
    14), (-3098177, 14), (-11820865, 16), (-11260179, 16), (-2677625, 14), (-10172225, 16), (-9646579, 16), (-2283617, 14),
    (-2158761, 14)] ++ List.replicate 16 (0, 0))

/-- the second frame, resampled -/
def frameY2 : List F32 := dyadics (
    List.replicate 43 (0, 0) ++ [(-1570063, 16), (8573255, 17), (-285721, 11), (4302975, 14), (-15222777, 15), (1678625, 11),
    (-13221999, 13), (1542277, 8), (8167201, 11), (-2830415, 11), (11944143, 14), (-6807015, 14), (15268473, 16), (-3978223, 15),
    (7197801, 17), (-9723057, 19)] ++ List.replicate 37 (0, 0))

/-- .. and filtered -/
def frameZ2 : List F32 := dyadics (
    [(-1609, 7), (-717, 6), (-1261, 7), (-1093, 7), (-933, 7), (-97, 4), (-313, 6), (-479, 7), (-337, 7), (-199, 7), (-33, 6),
    (31, 6), (93, 6), (305, 7), (105, 5), (267, 6), (639, 7), (743, 7), (421, 6), (937, 7), (1027, 7), (1117, 7), (599, 6), (10,
    0), (1357, 7), (715, 6), (1501, 7), (1569, 7), (1631, 7), (847, 6), (1749, 7), (3607, 8), (3713, 8), (119, 3), (1951, 7),
    (1993, 7), (4067, 8), (259, 4), (4215, 8), (2141, 7), (4341, 8), (2199, 7), (139, 3), (-1529, 8), (21205, 8), (-15443, 7),
    (71551, 8), (-113685, 8), (213525, 8), (-202977, 7), (1530061, 8), (482449, 7), (-420201, 8), (124381, 8), (-168767, 8),
    (-715, 8), (-45359, 7), (-5507, 5), (-15455, 6), (-6973, 5), (-27295, 7), (-26699, 7), (-26111, 7), (-12763, 6), (-12473, 6),
    (-24373, 7), (-11901, 6), (-23237, 7), (-22681, 7), (-5531, 5), (-21581, 7), (-5259, 5), (-20503, 7), (-156, 0), (-4863, 5),
    (-9465, 6), (-9213, 6), (-4479, 5), (-8713, 6), (-8467, 6), (-8223, 6), (-7985, 6), (-7751, 6), (-7519, 6), (-3645, 5),
    (-7065, 6), (-3423, 5), (-3313, 5), (-1603, 4), (-3101, 5), (-2997, 5), (-2895, 5), (-699, 3), (-2697, 5), (-5201, 6), (-5011,
    6)])

/-- the 6.4 kHz signal after the second frame -/
def frameX2 : List F32 := dyadics (
    List.replicate 92 (0, 0) ++ [(9678059, 71), (8611267, 70), (2350169, 68), (3212589, 68), (3723131, 11), (13754415, 13),
    (-8632379, 15), (-16635825, 16), (-500329, 11), (-15389959, 16), (-1846887, 13), (-7083359, 15), (-3391563, 14), (-3243723,
    14), (-3098177, 14), (-11820865, 16), (-11260179, 16), (-2677625, 14), (-10172225, 16), (-9646579, 16), (-2283617, 14),
    (-2158761, 14), (-8148657, 16), (-1919085, 14), (-14435333, 17), (-13546249, 17), (-6342917, 16), (-5926403, 16), (-5524145,
    16), (-10272193, 17), (-2380967, 15), (-8804259, 17), (-8111483, 17), (-7446531, 17), (-6809437, 17), (-6198215, 17),
    (-701647, 14), (-10111559, 18), (-70681, 11), (-4015747, 17), (-1766411, 16), (-1537225, 16), (-10560921, 19), (-4456841, 18),
    (-14709151, 20), (-1471051, 17), (-2248399, 18), (-199711, 15), (-246927, 16), (-13272787, 23), (7711275, 24), (4953327, 21),
    (271057, 16), (3030909, 19), (7652079, 20), (569743, 16), (2615737, 18), (11699559, 20), (12827495, 20), (1730765, 17),
    (7381131, 19), (15584953, 20), (509801, 15), (4239477, 18), (8760107, 19), (7473063, 19), (4772567, 19), (-577195, 17),
    (-4860769, 16), (6418861, 12)] ++ List.replicate 16 (0, 0))

deriving instance DecidableEq for EncLtpf

/-- the value of a computation -/
def Res.value {β : Type} : Res β → Option β
  | .ok v => some v
  | _ => none

theorem Res.eq_ok_of_value {β : Type} {r : Res β} {v : β} (h : r.value = some v) : r = .ok v := by
  cases r with
  | ok w => rw [Option.some.inj h]
  | err => cases h
  | panic => cases h

/-- `EncLtpf.run` in steps -/
theorem EncLtpf.run_eq {α : Type} [Scalar α] {cfg : Lc3Config} {s s1 : EncLtpf α} {x : List Int} {nn : Bool} {nbits : Nat}
    {y z xt x6 : List α} {h1 h2 nc pitch : α} {t index pitchInt : Nat} {fr : Int} {present active : Bool}
    (hx : x.length = cfg.nf) (e1 : ltpfShift cfg s x = .ok s1)
    (e2 : delayLtpfOf cfg.nMs + NMEM_12P8D + len12p8Of cfg.nMs ≤ s1.xt.length)
    (e3 : resampleAll cfg s1.xs 0 (len12p8Of cfg.nMs) = .ok y) (e4 : highPass50 y s1.h1 s1.h2 = (z, h1, h2))
    (e5 : s1.xt.take (delayLtpfOf cfg.nMs + NMEM_12P8D) ++ z ++ s1.xt.drop (delayLtpfOf cfg.nMs + NMEM_12P8D + len12p8Of cfg.nMs) = xt)
    (e6 : pitchDetection cfg s1.tPrev xt s1.x6 = .ok (t, present, x6))
    (e7 : pitchLagParameter cfg xt t = .ok (index, pitchInt, fr))
    (e8 : activationBit cfg { s1 with xt := xt, h1 := h1, h2 := h2, x6 := x6 } pitchInt fr nn
      (decide (ltpfTNbits cfg.nMs nbits < 560 + cfg.fsInd * 80)) = .ok (active, nc, pitch)) :
    s.run cfg x nn nbits = .ok ({ s1 with
      xt := xt, h1 := h1, h2 := h2, x6 := x6, tPrev := t, memMemNc := s1.memNc
      memPitch := if present then pitch else zero
      memActive := if present then active else false
      memNc := if present then nc else zero }, ⟨if present then index else 0, present, active, if present then 11 else 1⟩) := by
  unfold EncLtpf.run
  rw [if_neg (by simpa using hx)]
  simp only
  rw [e1, Res.bind_ok]
  rw [show sliceR s1.xt (delayLtpfOf cfg.nMs + NMEM_12P8D) (delayLtpfOf cfg.nMs + NMEM_12P8D + len12p8Of cfg.nMs) = .ok _ from
    if_pos ⟨by omega, e2⟩, Res.bind_ok, e3, Res.bind_ok, e4]
  simp only
  rw [e5, e6, Res.bind_ok]
  simp only
  rw [e7, Res.bind_ok]
  simp only
  rw [e8, Res.bind_ok]

@[reducible] local instance evalInst : Scalar F32 := F32.evalScalar sqrtElem

/-- the configuration of the example -/
abbrev cfgC20 : Lc3Config := Lc3Config.new .hz16000 .sevenPointFiveMs

/-- the filter before the first frame -/
def ltpfS0 : EncLtpf F32 := ⟨17, .fin 0, false, .fin 0, .fin 0, List.replicate 140 0, List.replicate (xtExtLen cfgC20) (.fin 0),
  List.replicate x6ExtLen (.fin 0), .fin 0, .fin 0⟩

/-- the 12.8 kHz signal after the first frame -/
def frameT1 : List F32 := List.replicate 276 (.fin 0) ++ frameZ1

/-- the filter after the first frame -/
def ltpfS1 : EncLtpf F32 := ⟨22, .fin 0, false, .fin 0, .fin 0, List.replicate 20 0 ++ pulseFrame 10, frameT1, frameX1,
  .fin (mkRat 14739455 (2 ^ 7)), .fin (mkRat 934203 (2 ^ 3))⟩

/-- the filter in the first frame, before resampling -/
def ltpfA : EncLtpf F32 := { ltpfS0 with xs := List.replicate 20 0 ++ pulseFrame 10 }

/-- the filter in the second frame, before resampling -/
def ltpfB : EncLtpf F32 := { ltpfS1 with
  xs := List.replicate 20 0 ++ pulseFrame 53
  xt := List.replicate 180 (.fin 0) ++ frameZ1 ++ frameZ1
  x6 := frameX1.drop 48 ++ frameX1.drop 130 }

/-- the 12.8 kHz signal after the second frame -/
def frameT2 : List F32 := List.replicate 180 (.fin 0) ++ frameZ1 ++ frameZ2

set_option maxRecDepth 1000000 in
theorem ltpfEval_shift1 : (ltpfShift cfgC20 ltpfS0 (pulseFrame 10)).value = some ltpfA := by decide +kernel

set_option maxRecDepth 1000000 in
theorem ltpfEval_resample1 : (resampleAll cfgC20 ltpfA.xs 0 96).value = some frameY1 := by decide +kernel

set_option maxRecDepth 1000000 in
theorem ltpfEval_filter1 : highPass50 frameY1 ltpfA.h1 ltpfA.h2 =
    (frameZ1, .fin (mkRat 14739455 (2 ^ 7)), .fin (mkRat 934203 (2 ^ 3))) := by decide +kernel

set_option maxRecDepth 1000000 in
theorem ltpfEval_signal1 : ltpfA.xt.take 276 ++ frameZ1 ++ ltpfA.xt.drop 372 = frameT1 := by decide +kernel

set_option maxRecDepth 1000000 in
theorem ltpfEval_pitch1 : (pitchDetection cfgC20 ltpfA.tPrev frameT1 ltpfA.x6).value = some (22, false, frameX1) := by decide +kernel

set_option maxRecDepth 1000000 in
theorem ltpfEval_lag1 : (pitchLagParameter cfgC20 frameT1 22).value = some (37, 41, 1) := by decide +kernel

set_option maxRecDepth 1000000 in
theorem ltpfEval_active1 : (activationBit cfgC20 { ltpfA with xt := frameT1, h1 := .fin (mkRat 14739455 (2 ^ 7)), h2 := .fin (mkRat 934203 (2 ^ 3)), x6 := frameX1 }
    41 1 false (decide (ltpfTNbits cfgC20.nMs 320 < 560 + cfgC20.fsInd * 80))).value = some (false, .fin (mkRat 0 (2 ^ 0)), .fin (mkRat 165 (2 ^ 2))) := by decide +kernel

set_option maxRecDepth 1000000 in
theorem ltpfEval_shift2 : (ltpfShift cfgC20 ltpfS1 (pulseFrame 53)).value = some ltpfB := by decide +kernel

set_option maxRecDepth 1000000 in
theorem ltpfEval_resample2 : (resampleAll cfgC20 ltpfB.xs 0 96).value = some frameY2 := by decide +kernel

set_option maxRecDepth 1000000 in
theorem ltpfEval_filter2 : highPass50 frameY2 ltpfB.h1 ltpfB.h2 =
    (frameZ2, .fin (mkRat 9797973 (2 ^ 6)), .fin (mkRat 2456027 (2 ^ 4))) := by decide +kernel

set_option maxRecDepth 1000000 in
theorem ltpfEval_signal2 : ltpfB.xt.take 276 ++ frameZ2 ++ ltpfB.xt.drop 372 = frameT2 := by decide +kernel

set_option maxRecDepth 1000000 in
theorem ltpfEval_pitch2 : (pitchDetection cfgC20 ltpfB.tPrev frameT2 ltpfB.x6).value = some (65, true, frameX2) := by decide +kernel

set_option maxRecDepth 1000000 in
theorem ltpfEval_lag2 : (pitchLagParameter cfgC20 frameT2 65).value = some (135, 130, 2) := by decide +kernel

set_option maxRecDepth 1000000 in
theorem ltpfEval_active2 : (activationBit cfgC20 { ltpfB with xt := frameT2, h1 := .fin (mkRat 9797973 (2 ^ 6)), h2 := .fin (mkRat 2456027 (2 ^ 4)), x6 := frameX2 }
    130 2 false (decide (ltpfTNbits cfgC20.nMs 320 < 560 + cfgC20.fsInd * 80))).value = some (false, .fin (mkRat 8305895 (2 ^ 23)), .fin (mkRat 261 (2 ^ 1))) := by decide +kernel

/-- the filter after the second frame -/
def ltpfS2 : EncLtpf F32 := ⟨65, .fin (mkRat 261 (2 ^ 1)), false, .fin (mkRat 8305895 (2 ^ 23)), .fin 0,
  List.replicate 20 0 ++ pulseFrame 53, frameT2, frameX2, .fin (mkRat 9797973 (2 ^ 6)), .fin (mkRat 2456027 (2 ^ 4))⟩

theorem evalInst_zero : (zero : F32) = .fin 0 := by decide +kernel

/-- the first frame -/
theorem ltpfRun1 : ltpfS0.run cfgC20 (pulseFrame 10) false 320 = .ok (ltpfS1, ⟨0, false, false, 1⟩) := by
  rw [EncLtpf.run_eq (s1 := ltpfA) (show (pulseFrame 10).length = cfgC20.nf by decide +kernel) (Res.eq_ok_of_value ltpfEval_shift1)
    (by decide +kernel) (Res.eq_ok_of_value ltpfEval_resample1)
    ltpfEval_filter1 ltpfEval_signal1 (Res.eq_ok_of_value ltpfEval_pitch1) (Res.eq_ok_of_value ltpfEval_lag1)
    (Res.eq_ok_of_value ltpfEval_active1)]
  simp only [Bool.false_eq_true, if_false, evalInst_zero]
  rfl

/-- the second frame -/
theorem ltpfRun2 : ltpfS1.run cfgC20 (pulseFrame 53) false 320 = .ok (ltpfS2, ⟨135, true, false, 11⟩) := by
  rw [EncLtpf.run_eq (s1 := ltpfB) (show (pulseFrame 53).length = cfgC20.nf by decide +kernel) (Res.eq_ok_of_value ltpfEval_shift2)
    (by decide +kernel) (Res.eq_ok_of_value ltpfEval_resample2)
    ltpfEval_filter2 ltpfEval_signal2 (Res.eq_ok_of_value ltpfEval_pitch2) (Res.eq_ok_of_value ltpfEval_lag2)
    (Res.eq_ok_of_value ltpfEval_active2)]
  rfl

theorem EncLtpf.runAll_two {α : Type} [Scalar α] {cfg : Lc3Config} {s0 s1 s2 : EncLtpf α} {x y : List Int} {nbits : Nat}
    {r r' : EncLtpfResult} (h1 : s0.run cfg x false nbits = .ok (s1, r)) (h2 : s1.run cfg y false nbits = .ok (s2, r')) :
    s0.runAll cfg [(x, false, nbits), (y, false, nbits)] = .ok (s2, [r, r']) := by
  simp only [EncLtpf.runAll, h1, h2, Res.bind_ok]

theorem ltpf_newS0 : EncLtpf.new cfgC20 (List.replicate 550 (.fin 0)) (List.replicate 140 0) = .ok (ltpfS0, [], []) :=
  Res.eq_ok_of_value (by decide +kernel)

/-- what a run shows: the lag in the memory and the results of the frames -/
def pitchAndResults : Res (EncLtpf F32 × List EncLtpfResult) → F32 × List EncLtpfResult
  | .ok (s, rs) => (s.memPitch, rs)
  | _ => (.nan, [])

/-- A fresh encoder at 16 kHz gets two frames with one pulse each, 163 samples (130.4 samples at 12.8 kHz) apart. In the second frame
it measures a lag of 130.5 samples and sends the index 135. -/
theorem C20_frames :
    pitchAndResults (@EncLtpf.new F32 (F32.scalar sqrtElem) (Lc3Config.new .hz16000 .sevenPointFiveMs) (List.replicate 550 (.fin 0))
        (List.replicate 140 0) >>= fun s =>
      @EncLtpf.runAll F32 (F32.scalar sqrtElem) (Lc3Config.new .hz16000 .sevenPointFiveMs) s.1
        [(pulseFrame 10, false, 320), (pulseFrame 53, false, 320)]) =
      (.fin (130 + 1 / 2), [⟨0, false, false, 1⟩, ⟨135, true, false, 11⟩]) := by
  rw [F32.evalScalar_eq, ltpf_newS0, Res.bind_ok, EncLtpf.runAll_two ltpfRun1 ltpfRun2]
  simp only [pitchAndResults]
  rw [show ltpfS2.memPitch = .fin (mkRat 261 (2 ^ 1)) from rfl]
  norm_num [Rat.mkRat_eq_div]

/-- .. and the decoder reads 65.75 samples from the index 135. -/
theorem C20_frames_decoder : pitchLagDec 135 = .ok (65, 3) := by decide

end Lc3
