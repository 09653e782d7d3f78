/-!
# What a WIB frame contains

The layout of a WIB frame, independent of the code that unpacks it: a frame is 464 bytes, a header
of 16 bytes and four blocks of 112 bytes; a block is a header of 16 bytes and eight segments of 12
bytes; a pair of segments carries two ADC chips (8 channels each), the first segment channels 0-3
and the second channels 4-7.  The bytes of the two chips alternate, and the 12-bit values of one
chip are packed one after the other, least significant bits first.  (The structures are defined in
the package detdataformats, which is not part of /repo.)
-/

namespace Verif.Expand

/-- The six bytes of chip `a` (0 or 1) in the segment starting at byte 0 of `f`, as a number. -/
def chipBits (f : Nat → Nat) (a : Nat) : Nat :=
  f a + 256 * (f (a + 2) + 256 * (f (a + 4) + 256 * (f (a + 6) + 256 * (f (a + 8) + 256 * f (a + 10)))))

/-- Value `ch` (0-3) of chip `a` in a segment. -/
def segmentValue (f : Nat → Nat) (a ch : Nat) : Nat := chipBits f a / 4096 ^ ch % 4096

/-- The first byte of the segment with the given channel (0-255). -/
def segmentStart (chan : Nat) : Nat :=
  let block := chan / 64
  let chip := chan % 64 / 8
  16 + 112 * block + 16 + 12 * (2 * (chip / 2) + chan % 8 / 4)

/-- The ADC value of channel `chan` in the frame starting at byte 0 of `f`. -/
def adcValue (f : Nat → Nat) (chan : Nat) : Nat :=
  segmentValue (fun i => f (segmentStart chan + i)) (chan / 8 % 2) (chan % 4)

end Verif.Expand
