import Verif.Model.Rounding
/-!
# Rounding control back ends (detail/*_rounding_control.hpp, ext/x86_fast_rounding_control.hpp)

The control word of each platform, with the encoding of the rounding direction documented by its vendor, and the
library's operations on it. Instructions that load and store the control word are taken at their documented effect.
-/

namespace BI

/-- Write the bits of `v` selected by `mask` into `w`: what `_control87(v, mask)` does
(detail/msvc_rounding_control.hpp 92, detail/bcc_rounding_control.hpp 48), and the effect of loading a control register
some bits of which are read-only. -/
def maskWrite {n : Nat} (mask v w : BitVec n) : BitVec n := (v &&& mask) ||| (w &&& ~~~mask)

/-- A control register of `n` bits whose direction field is at bits `hi`, `lo`; loading a word writes the bits of
`mask`. The common shape of `set_rounding_mode`, `get_rounding_mode` in detail/x86gcc_rounding_control.hpp 31-35,
detail/ppc_rounding_control.hpp 40-44, detail/sparc_rounding_control.hpp 34-60, detail/alpha_rounding_control.hpp
43-47. -/
def regCtl (n : Nat) (mask : BitVec n) (hi lo : Nat) (table : Bool → Bool → RMode)
    (toNearest downward upward towardZero : BitVec n) : Ctl where
  W := BitVec n
  Saved := BitVec n
  decode w := table (w.getLsbD hi) (w.getLsbD lo)
  get := id
  set := maskWrite mask
  upward := maskWrite mask upward
  downward := maskWrite mask downward
  toNearest := maskWrite mask toNearest
  towardZero := maskWrite mask towardZero

/-- Direction field of the x87 control word, bits 11 and 10. -/
def x87Dir : Bool → Bool → RMode
  | false, false => .near
  | false, true => .down
  | true, false => .up
  | true, true => .zero

/-- detail/x86_rounding_control.hpp 37-55 with detail/x86gcc_rounding_control.hpp 27-44 (`fldcw`, `fnstcw`). -/
def x86gcc : Ctl := regCtl 16 (BitVec.allOnes 16) 11 10 x87Dir 0x137f 0x177f 0x1b7f 0x1f7f

/-- ext/x86_fast_rounding_control.hpp 27, 36-44 -/
def x86fastFloat : Ctl := regCtl 16 (BitVec.allOnes 16) 11 10 x87Dir 0x107f 0x147f 0x187f 0x1c7f
/-- ext/x86_fast_rounding_control.hpp 28, 46-54 -/
def x86fastDouble : Ctl := regCtl 16 (BitVec.allOnes 16) 11 10 x87Dir 0x127f 0x167f 0x1a7f 0x1e7f
/-- ext/x86_fast_rounding_control.hpp 29, 56-64 -/
def x86fastLongDouble : Ctl := regCtl 16 (BitVec.allOnes 16) 11 10 x87Dir 0x137f 0x177f 0x1b7f 0x1f7f

/-- detail/bcc_rounding_control.hpp 42-50 (`_control87(mode, 0xffff)`) with the constants of
detail/x86_rounding_control.hpp. -/
def bcc : Ctl := regCtl 32 0xffff 11 10 x87Dir 0x137f 0x177f 0x1b7f 0x1f7f

/-- Direction field `RN` of the PowerPC status register, its two lowest bits
(the constants of detail/ppc_rounding_control.hpp 31-34). -/
def ppcDir : Bool → Bool → RMode
  | false, false => .near
  | false, true => .zero
  | true, false => .up
  | true, true => .down

/-- detail/ppc_rounding_control.hpp 26-50. The 64-bit image of the register; `mtfsf 255` writes the low 32 bits. -/
def ppc : Ctl := regCtl 64 0x00000000ffffffff 1 0 ppcDir
  0xFFF8000000000000 0xFFF8000000000003 0xFFF8000000000002 0xFFF8000000000001

/-- Direction field `RD` of the SPARC state register, bits 31 and 30. -/
def sparcDir : Bool → Bool → RMode
  | false, false => .near
  | false, true => .zero
  | true, false => .up
  | true, true => .down

/-- detail/sparc_rounding_control.hpp 30-73 for GNU C. The fields `ver`, `ftt` and `qne` (bits 19-13) are read-only. -/
def sparc : Ctl := regCtl 32 0xfff01fff 31 30 sparcDir 0x00000000 0xc0000000 0x80000000 0x40000000

/-- Direction field `DYN` of the Alpha control register, bits 59 and 58. -/
def alphaDir : Bool → Bool → RMode
  | false, false => .zero
  | false, true => .down
  | true, false => .near
  | true, true => .up

/-- detail/alpha_rounding_control.hpp 26-53 for GNU C. -/
def alpha : Ctl := regCtl 64 (BitVec.allOnes 64) 59 58 alphaDir
  0x4808000000000000 0x4408000000000000 0x4C08000000000000 0x4008000000000000

/-! ## Directions set through a library call -/

/-- The environment of a platform with `fegetround` and `fesetround`: a direction, and anything else
(detail/c99sub_rounding_control.hpp 27-28). -/
structure FEnv (X : Type) where
  dir : RMode
  other : X

/-- `fesetround`: an argument that is none of the four macros changes nothing. `fe` gives the values of the macros.
Used in detail/c99sub_rounding_control.hpp 27. -/
def fesetround {X : Type} (fe : RMode → Int) (i : Int) (w : FEnv X) : FEnv X :=
  if i = fe .near then { w with dir := .near }
  else if i = fe .down then { w with dir := .down }
  else if i = fe .up then { w with dir := .up }
  else if i = fe .zero then { w with dir := .zero }
  else w

/-- detail/c99sub_rounding_control.hpp 23-36; also detail/ia64_rounding_control.hpp 27-39 (there the saved mode is
`unsigned int`), detail/sparc_rounding_control.hpp 38-39, 52-53, 62-66 for Sun C++ (`fpgetround`, `fpsetround`) and
detail/alpha_rounding_control.hpp 60-71 for DEC C++ (`read_rnd`, `write_rnd`). -/
def c99 (X : Type) (fe : RMode → Int) : Ctl where
  W := FEnv X
  Saved := Int
  decode w := w.dir
  get w := fe w.dir
  set := fesetround fe
  upward := fesetround fe (fe .up)
  downward := fesetround fe (fe .down)
  toNearest := fesetround fe (fe .near)
  towardZero := fesetround fe (fe .zero)

/-- Values of the macros of detail/c99sub_rounding_control.hpp 29-32 in glibc on x86. -/
def feGlibc : RMode → Int
  | .near => 0
  | .down => 0x400
  | .up => 0x800
  | .zero => 0xc00

/-! ## detail/msvc_rounding_control.hpp, with the constants of Microsoft's float.h -/

/-- `_EM_INVALID`, detail/msvc_rounding_control.hpp 43 -/
def EM_INVALID : BitVec 32 := 0x00000010
/-- `_EM_DENORMAL`, detail/msvc_rounding_control.hpp 44 -/
def EM_DENORMAL : BitVec 32 := 0x00080000
/-- `_EM_ZERODIVIDE`, detail/msvc_rounding_control.hpp 45 -/
def EM_ZERODIVIDE : BitVec 32 := 0x00000008
/-- `_EM_OVERFLOW`, detail/msvc_rounding_control.hpp 46 -/
def EM_OVERFLOW : BitVec 32 := 0x00000004
/-- `_EM_UNDERFLOW`, detail/msvc_rounding_control.hpp 47 -/
def EM_UNDERFLOW : BitVec 32 := 0x00000002
/-- `_EM_INEXACT`, detail/msvc_rounding_control.hpp 48 -/
def EM_INEXACT : BitVec 32 := 0x00000001
/-- `_MCW_EM`, detail/msvc_rounding_control.hpp 93 -/
def MCW_EM : BitVec 32 := 0x0008001f
/-- `_RC_NEAR`, detail/msvc_rounding_control.hpp 55 -/
def RC_NEAR : BitVec 32 := 0x00000000
/-- `_RC_DOWN`, detail/msvc_rounding_control.hpp 56 -/
def RC_DOWN : BitVec 32 := 0x00000100
/-- `_RC_UP`, detail/msvc_rounding_control.hpp 57 -/
def RC_UP : BitVec 32 := 0x00000200
/-- `_RC_CHOP`, detail/msvc_rounding_control.hpp 58 -/
def RC_CHOP : BitVec 32 := 0x00000300
/-- `_MCW_RC`, detail/msvc_rounding_control.hpp 72 -/
def MCW_RC : BitVec 32 := 0x00000300
/-- `_PC_24`, detail/msvc_rounding_control.hpp 50 -/
def PC_24 : BitVec 32 := 0x00020000
/-- `_PC_53`, detail/msvc_rounding_control.hpp 51 -/
def PC_53 : BitVec 32 := 0x00010000
/-- `_PC_64`, detail/msvc_rounding_control.hpp 52 -/
def PC_64 : BitVec 32 := 0x00000000
/-- `_MCW_PC`, detail/msvc_rounding_control.hpp 78 -/
def MCW_PC : BitVec 32 := 0x00030000
/-- `_IC_AFFINE`, detail/msvc_rounding_control.hpp 60 -/
def IC_AFFINE : BitVec 32 := 0x00040000
/-- `_MCW_IC`, detail/msvc_rounding_control.hpp 83 -/
def MCW_IC : BitVec 32 := 0x00040000

/-- detail/msvc_rounding_control.hpp 41-62 -/
def hard2msvc (m : BitVec 16) : BitVec 32 :=
  let n : BitVec 32 := 0
  let n := if m &&& 0x01 ≠ 0 then n ||| EM_INVALID else n
  let n := if m &&& 0x02 ≠ 0 then n ||| EM_DENORMAL else n
  let n := if m &&& 0x04 ≠ 0 then n ||| EM_ZERODIVIDE else n
  let n := if m &&& 0x08 ≠ 0 then n ||| EM_OVERFLOW else n
  let n := if m &&& 0x10 ≠ 0 then n ||| EM_UNDERFLOW else n
  let n := if m &&& 0x20 ≠ 0 then n ||| EM_INEXACT else n
  let n :=
    if m &&& 0x300 = 0x000 then n ||| PC_24
    else if m &&& 0x300 = 0x200 then n ||| PC_53
    else if m &&& 0x300 = 0x300 then n ||| PC_64
    else n
  let n :=
    if m &&& 0xC00 = 0x000 then n ||| RC_NEAR
    else if m &&& 0xC00 = 0x400 then n ||| RC_DOWN
    else if m &&& 0xC00 = 0x800 then n ||| RC_UP
    else if m &&& 0xC00 = 0xC00 then n ||| RC_CHOP
    else n
  if m &&& 0x1000 ≠ 0 then n ||| IC_AFFINE else n

/-- detail/msvc_rounding_control.hpp 64-85 -/
def msvc2hard (n : BitVec 32) : BitVec 16 :=
  let m : BitVec 16 := 0
  let m := if n &&& EM_INVALID ≠ 0 then m ||| 0x01 else m
  let m := if n &&& EM_DENORMAL ≠ 0 then m ||| 0x02 else m
  let m := if n &&& EM_ZERODIVIDE ≠ 0 then m ||| 0x04 else m
  let m := if n &&& EM_OVERFLOW ≠ 0 then m ||| 0x08 else m
  let m := if n &&& EM_UNDERFLOW ≠ 0 then m ||| 0x10 else m
  let m := if n &&& EM_INEXACT ≠ 0 then m ||| 0x20 else m
  let m :=
    if n &&& MCW_RC = RC_NEAR then m ||| 0x000
    else if n &&& MCW_RC = RC_DOWN then m ||| 0x400
    else if n &&& MCW_RC = RC_UP then m ||| 0x800
    else if n &&& MCW_RC = RC_CHOP then m ||| 0xC00
    else m
  let m :=
    if n &&& MCW_PC = PC_24 then m ||| 0x000
    else if n &&& MCW_PC = PC_53 then m ||| 0x200
    else if n &&& MCW_PC = PC_64 then m ||| 0x300
    else m
  if n &&& MCW_IC = IC_AFFINE then m ||| 0x1000 else m

/-- The fields written by `set_rounding_mode`, lines 97-109; `x64` stands for the 64-bit and ARM targets. -/
def msvcMask (x64 : Bool) : BitVec 32 := if x64 then MCW_EM ||| MCW_RC else MCW_EM ||| MCW_RC ||| MCW_PC ||| MCW_IC

/-- detail/msvc_rounding_control.hpp 88-104: `_control87(new, mask)` writes the masked bits and returns the word. -/
def msvcSet (x64 : Bool) (mode : BitVec 16) (w : BitVec 32) : BitVec 32 :=
  maskWrite (msvcMask x64) (hard2msvc mode) w

/-- The Microsoft back end, with the constants of detail/x86_rounding_control.hpp 47. -/
def msvc (x64 : Bool) : Ctl where
  W := BitVec 32
  Saved := BitVec 16
  decode w := x87Dir (w.getLsbD 9) (w.getLsbD 8)
  get := msvc2hard
  set := msvcSet x64
  upward := msvcSet x64 0x1b7f
  downward := msvcSet x64 0x177f
  toNearest := msvcSet x64 0x137f
  towardZero := msvcSet x64 0x1f7f

end BI
