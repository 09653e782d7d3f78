import Verif.Basic
/-
The fast unpacking of WIB2 frames, test/apps/test_fast_expand_wib2frame_app.cxx l.72-185.

Memory is an array of `size` 32-bit words; an access past its end is undefined behaviour. A 256-bit register is a
function from word number (0-7, least significant first) to its 32-bit word; the AVX2 instructions are modelled from
Intel's description of them.
-/
namespace Verif.Unpack2

/-- Memory as 32-bit words (`word_t`). l.73-75. -/
structure Mem where
  size : Nat
  word : Nat → BitVec 32

/-- A 256-bit register by 32-bit words (`__m256i`). l.75. -/
abbrev V := Nat → BitVec 32

/-- `_mm256_set_epi32`: the arguments come most significant first. l.84, 98. -/
def set (l : List Nat) : Nat → Nat := fun i => l.getD (7 - i) 0

/-- `_mm256_lddqu_si256`, l.75. -/
def load (m : Mem) (p : Nat) : Outcome V :=
  if p + 8 ≤ m.size then .ok (fun i => m.word (p + i)) else .ub .outOfBounds

/-- `_mm256_permutevar8x32_epi32`, l.85, 127, 167. -/
def permute (a : V) (idx : Nat → Nat) : V := fun i => a (idx i % 8)

/-- `_mm256_sllv_epi32`, l.100, 117. -/
def sllv (a : V) (n : Nat → Nat) : V := fun i => a i <<< n i

/-- `_mm256_srlv_epi32`, l.135; with equal counts also `_mm256_srli_epi32`, l.162. -/
def srlv (a : V) (n : Nat → Nat) : V := fun i => a i >>> n i

/-- `_mm256_and_si256` with a mask, l.104, 147, 164. -/
def vand (a : V) (mask : Nat → Nat) : V := fun i => a i &&& BitVec.ofNat 32 (mask i)

/-- `_mm256_andnot_si256`: the mask is complemented. l.155. -/
def vandnot (mask : Nat → Nat) (a : V) : V := fun i => ~~~ BitVec.ofNat 32 (mask i) &&& a i

/-- `_mm256_or_si256`, l.144, 153, 169. -/
def vor (a b : V) : V := fun i => a i ||| b i

/-- `unpack_one_register` on a loaded register, l.79-174. -/
def unpackReg (reg : V) : V :=
  let shuf1 := permute reg (set [6, 5, 4, 3, 3, 2, 1, 0])
  let high := vand (sllv shuf1 (set [12, 8, 4, 0, 14, 10, 6, 2])) (fun _ => 0x3fff0000)
  let shift2 := sllv shuf1 (set [10, 6, 2, 0, 12, 8, 4, 0])
  let shuf2 := permute reg (set [5, 4, 3, 2, 2, 1, 0, 0])
  let shift3 := srlv shuf2 (set [22, 26, 30, 0, 20, 24, 28, 0])
  let low := vand (vor shift2 shift3) (fun _ => 0x3fff)
  let both := vandnot (set [0, 0, 0, 0xffff, 0, 0, 0, 0]) (vor low high)
  let shift4 := vand (srlv reg (fun _ => 18)) (set [0, 0x3fff, 0, 0, 0, 0, 0, 0])
  vor both (permute shift4 (set [0, 0, 0, 6, 0, 0, 0, 0]))

/-- The loop of `unpack`, l.181-183: register `i` is made from the eight words at `adc_words + 7 * i`. -/
def unpackLoop (m : Mem) (p : Nat) : Nat → Nat → (Nat → V) → Outcome (Nat → V)
  | 0, _, ret => .ok ret
  | k + 1, i, ret => do
    let r ← load m (p + 7 * i)
    unpackLoop m p k (i + 1) (fun j => if j = i then unpackReg r else ret j)

/-- `unpack` of the frame whose `adc_words` begin at word `p`, l.177-185; `ret0`: the uninitialised registers. -/
def unpack (m : Mem) (p : Nat) (ret0 : Nat → V) : Outcome (Nat → V) := unpackLoop m p 16 0 ret0

/-- `RegisterArray::uint16`, l.35. -/
def uint16 (r : Nat → V) (i : Nat) : BitVec 16 := (r (i / 16) (i % 16 / 2) >>> (16 * (i % 2))).truncate 16

end Verif.Unpack2
