import Verif.Model.SideInfo
/-!
# The clock of the ARM example and the program that lists side information

Model of examples/arm/src/main.rs 21-28 and 114-179 and of examples/read_sideinfo.rs.

Simplifications: time is counted in ticks of the timer since `init`; the counter starts at the reload value; the interrupt handler has run when the
counter has been reloaded (the comment of line 114). The calibration value `SYST::get_ticks_per_10ms` is a parameter.
-/

namespace Lc3

/-- examples/arm/src/main.rs 129 -/
def SYSTICK_EVERY_NUM_TICKS : Nat := 0x00ffffff

/-- the counter register at time `t`: it counts down from the reload value to zero, then it is reloaded (main.rs 21-28) -/
def cvrAt (t : Nat) : Nat := SYSTICK_EVERY_NUM_TICKS - t % (SYSTICK_EVERY_NUM_TICKS + 1)

/-- `OVERFLOWS` at time `t`: the handler (main.rs 115-123) adds one whenever the counter is reloaded, modulo 2^32 -/
def overflowsAt (t : Nat) : Nat := t / (SYSTICK_EVERY_NUM_TICKS + 1) % 2 ^ 32

/-- examples/arm/src/main.rs 145-164: one round of the loop with its three reads at the times `t1`, `t2` and `t3`; `none` if it has to be repeated -/
def uptimeRound (t1 t2 t3 : Nat) : Option (Nat × Nat) :=
  let hi := overflowsAt t1
  let low := cvrAt t2
  let hiAgain := overflowsAt t3
  if hi = hiAgain then some (hi, SYSTICK_EVERY_NUM_TICKS - low) else none

/-- `core::time::Duration`: seconds and nanoseconds -/
structure Duration where
  secs : Nat
  nanos : Nat
  deriving Repr, DecidableEq

/-- `Duration::new`: whole seconds are carried over, an overflow of the seconds panics -/
def Duration.new (secs nanos : Nat) : Res Duration :=
  if 2 ^ 64 ≤ secs + nanos / 1000000000 then .panic else .ok ⟨secs + nanos / 1000000000, nanos % 1000000000⟩

/-- the nanoseconds of a duration -/
def Duration.total (d : Duration) : Nat := d.secs * 1000000000 + d.nanos

/-- `a - b` panics if the result would be negative -/
def Duration.sub (a b : Duration) : Res Duration :=
  if a.total < b.total then .panic
  else .ok ⟨(a.total - b.total) / 1000000000, (a.total - b.total) % 1000000000⟩

/-- examples/arm/src/main.rs 168: `*` binds stronger than `|` -/
def uptimeTicks (high low : Nat) : Nat := high * SYSTICK_EVERY_NUM_TICKS ||| low

/-- examples/arm/src/main.rs 166-178: the time for the values read. `tp` is the number of ticks in 10 ms, a 24 bit register. The products fit into 64 bits
(`C116_no_overflow`). -/
def uptimeOf (tp high low : Nat) : Res Duration :=
  if high > 0 then
    let ticks := uptimeTicks high low
    if tp = 0 then .panic
    else
      let secs := ticks / (tp * 100)
      let nanos := ticks % (tp * 100) * 10000000 / tp
      Duration.new secs (nanos % 2 ^ 32)
  else if tp = 0 then .panic
  else Duration.new 0 (low * 10000000 / tp % 2 ^ 32)

/-- examples/arm/src/main.rs 61-65 and 107-111: the time between two readings, at `t1` and at `t2` (each undisturbed) -/
def measured (tp t1 t2 : Nat) : Res Duration := do
  let a ← uptimeOf tp (overflowsAt t1) (SYSTICK_EVERY_NUM_TICKS - cvrAt t1)
  let b ← uptimeOf tp (overflowsAt t2) (SYSTICK_EVERY_NUM_TICKS - cvrAt t2)
  b.sub a

/-- examples/read_sideinfo.rs 36-49: the loop. The side information printed, and the cursor of the frame whose side information is invalid. The first
argument bounds the number of frames. -/
def listSideInfoLoop (n fsInd ne : Nat) : Nat → List Nat → Nat → Res (List SideInfo × Option Nat)
  | 0, _, _ => .ok ([], none)
  | fuel + 1, buf, cursor =>
    if cursor ≥ buf.length then .ok ([], none)
    else if cursor + n > buf.length then .panic
    else match readSideInfo ((buf.drop cursor).take n) Reader.new fsInd ne with
      | .ok (si, _) => do
        let (l, e) ← listSideInfoLoop n fsInd ne fuel buf (cursor + n)
        .ok (si :: l, e)
      | .err => .ok ([], some cursor)
      | .panic => .panic

/-- examples/read_sideinfo.rs 24-50 (`main`) with the file `buf` -/
def listSideInfo (buf : List Nat) : Res (List SideInfo × Option Nat) :=
  let cfg := Lc3Config.new .hz48000 .tenMs
  listSideInfoLoop 150 cfg.fsInd cfg.ne (buf.length + 1) buf 0

end Lc3
