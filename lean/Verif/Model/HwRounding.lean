import Verif.Model.Platform
/-!
# The choice of a back end (hw_rounding.hpp) and the two floating-point units of x86

The headers are conditional text: which specialisation of `rounding_control` a program gets is decided by the macros the
compiler predefines. The x87 and the SSE unit have a control register each; a back end may set one of them or both.
-/

namespace BI

/-- The macros on which the headers depend; `true`: defined.
hw_rounding.hpp 21-38, detail/x86_rounding_control.hpp 14-25, detail/ppc_rounding_control.hpp 19,
detail/sparc_rounding_control.hpp 36-72, detail/alpha_rounding_control.hpp 17-58, detail/ia64_rounding_control.hpp 17 -/
structure Macros where
  /-- `__x86_64__` -/
  x86_64 : Bool := false
  /-- `BOOST_NO_FENV_H`: there is no header fenv.h. -/
  noFenv : Bool := false
  /-- `__i386__` -/
  i386 : Bool := false
  /-- `__i386` -/
  i386Sun : Bool := false
  /-- `_M_IX86` -/
  mIX86 : Bool := false
  /-- `_M_X64` -/
  mX64 : Bool := false
  /-- `powerpc`, `__powerpc__` or `__ppc__` -/
  ppc : Bool := false
  /-- `sparc` or `__sparc__` -/
  sparc : Bool := false
  /-- `alpha` or `__alpha__` -/
  alpha : Bool := false
  /-- `ia64`, `__ia64` or `__ia64__` -/
  ia64 : Bool := false
  /-- `__GNUC__` -/
  gnuc : Bool := false
  /-- `__clang__` -/
  clang : Bool := false
  /-- `__BORLANDC__` -/
  borland : Bool := false
  /-- `_MSC_VER` -/
  msc : Bool := false
  /-- `__MWERKS__` or `__ICC` -/
  mwerksIcc : Bool := false
  /-- `__SUNPRO_CC` -/
  sunpro : Bool := false
  /-- `__digital__` -/
  digital : Bool := false
  /-- `__DECCXX` -/
  deccxx : Bool := false
  /-- `__FLT_ROUNDS == -1` -/
  dynRounds : Bool := false
  /-- `__IBMCPP__ >= 700` -/
  ibm700 : Bool := false
  /-- `__hpux` -/
  hpux : Bool := false
  deriving DecidableEq, Repr

/-- The implementations of `rounding_control<float>`, `<double>`, `<long double>` in detail/*_rounding_control.hpp. -/
inductive Backend where
  /-- detail/c99_rounding_control.hpp 20-42 -/
  | c99
  /-- detail/x86_rounding_control.hpp with detail/x86gcc_rounding_control.hpp -/
  | x86gcc
  /-- detail/x86_rounding_control.hpp with detail/bcc_rounding_control.hpp -/
  | bcc
  /-- detail/x86_rounding_control.hpp with detail/msvc_rounding_control.hpp -/
  | msvc
  /-- detail/x86_rounding_control.hpp 20-22, 33-35 -/
  | x86c99
  /-- detail/ppc_rounding_control.hpp -/
  | ppc
  /-- detail/sparc_rounding_control.hpp for GNU C -/
  | sparc
  /-- detail/sparc_rounding_control.hpp for Sun C++ -/
  | sparcSun
  /-- detail/alpha_rounding_control.hpp for GNU C -/
  | alpha
  /-- detail/alpha_rounding_control.hpp for DEC C++ -/
  | alphaDec
  /-- detail/ia64_rounding_control.hpp -/
  | ia64
  deriving DecidableEq, Repr

/-- The preprocessor while it reads hw_rounding.hpp: whether `BOOST_NUMERIC_INTERVAL_NO_HARDWARE` is defined, and the
specialisations seen so far (each back end once: the headers have include guards). `none`: a `#error` was reached. -/
structure PP where
  noHardware : Bool
  specs : List Backend
  deriving DecidableEq, Repr

/-- The end of a back end header: its specialisations, and `#undef BOOST_NUMERIC_INTERVAL_NO_HARDWARE`.
For instance detail/c99_rounding_control.hpp 20-48. -/
def PP.provide (b : Backend) (s : PP) : Option PP :=
  some ⟨false, if b ∈ s.specs then s.specs else s.specs ++ [b]⟩

/-- detail/x86_rounding_control.hpp 14-25 and 106; detail/x86gcc_rounding_control.hpp 14-20,
detail/bcc_rounding_control.hpp 14-20 (`#error` unless `__i386__` or `__x86_64__`, `_M_IX86` are defined) -/
def includeX86 (m : Macros) (s : PP) : Option PP :=
  if m.gnuc || m.borland && m.clang then
    if !m.i386 && !m.x86_64 then none else s.provide .x86gcc
  else if m.borland then
    if !m.mIX86 then none else s.provide .bcc
  else if m.msc then s.provide .msvc
  else if m.mwerksIcc || m.sunpro then s.provide .x86c99
  else none

/-- detail/ppc_rounding_control.hpp 19, 96-97: nothing for other compilers -/
def includePpc (m : Macros) (s : PP) : Option PP :=
  if m.gnuc || m.ibm700 then s.provide .ppc else some s

/-- detail/sparc_rounding_control.hpp 36-72: `#error` for other compilers, also in `get_rounding_mode` for KCC. No compiler
defines both `__GNUC__` and `__SUNPRO_CC`. -/
def includeSparc (m : Macros) (s : PP) : Option PP :=
  if m.gnuc then s.provide .sparc else if m.sunpro then s.provide .sparcSun else none

/-- detail/alpha_rounding_control.hpp 17, 26, 54-58, 110-111: nothing for other compilers, `#error` for DEC C++ without
dynamic rounding -/
def includeAlpha (m : Macros) (s : PP) : Option PP :=
  if m.gnuc || m.digital || m.deccxx then
    if m.gnuc then s.provide .alpha
    else if m.deccxx && !m.dynRounds then none
    else s.provide .alphaDec
  else some s

/-- detail/ia64_rounding_control.hpp 17, 78-80: nothing but on HP-UX -/
def includeIa64 (m : Macros) (s : PP) : Option PP :=
  if m.hpux then s.provide .ia64 else some s

/-- hw_rounding.hpp 21-35 -/
def firstChoice (m : Macros) (s : PP) : Option PP :=
  if m.x86_64 && !m.noFenv then s.provide .c99
  else if m.i386 || m.mIX86 || m.borland && !m.clang || m.mX64 then includeX86 m s
  else if m.i386Sun && m.sunpro then includeX86 m s
  else if m.ppc then includePpc m s
  else if m.sparc then includeSparc m s
  else if m.alpha then includeAlpha m s
  else if m.ia64 then includeIa64 m s
  else some s

/-- hw_rounding.hpp 18-44 -/
def hwRounding (m : Macros) : Option PP := do
  let s ← firstChoice m ⟨true, []⟩
  let s ← if s.noHardware && !m.noFenv then s.provide .c99 else some s
  if s.noHardware then none else some s

/-- The control word behind a back end; the values of the macros `FE_UPWARD` etc. and the target of the Microsoft
compiler are parameters. hw_rounding.hpp 20-39 and the headers included there. -/
def Backend.ctl (fe : RMode → Int) (x64 : Bool) : Backend → Ctl
  | .c99 | .x86c99 | .sparcSun | .alphaDec | .ia64 => BI.c99 Unit fe
  | .x86gcc => BI.x86gcc
  | .bcc => BI.bcc
  | .msvc => BI.msvc x64
  | .ppc => BI.ppc
  | .sparc => BI.sparc
  | .alpha => BI.alpha

/-! ## Two units -/

/-- The floating-point units of an x86 processor (doc/interval.htm 66-70). -/
inductive FpUnit where
  | x87 | sse
  deriving DecidableEq, Repr

/-- Both control registers, as read by `fnstcw` (detail/x86gcc_rounding_control.hpp 34) and `stmxcsr`. -/
structure X86Regs where
  x87 : BitVec 16
  mxcsr : BitVec 32
  deriving DecidableEq, Repr

/-- The direction in which a unit rounds: bits 11-10 of the x87 word, bits 14-13 of MXCSR, with the same encoding
(the constants of detail/x86_rounding_control.hpp 47). -/
def X86Regs.dir (w : X86Regs) : FpUnit → RMode
  | .x87 => x87Dir (w.x87.getLsbD 11) (w.x87.getLsbD 10)
  | .sse => x87Dir (w.mxcsr.getLsbD 14) (w.mxcsr.getLsbD 13)

/-- `fesetround` of glibc on x86: writes the direction fields of both registers. An argument with other bits changes
nothing. Called in detail/c99sub_rounding_control.hpp 27. -/
def glibcSet (r : BitVec 32) (w : X86Regs) : X86Regs :=
  if r &&& ~~~0xc00#32 ≠ 0 then w
  else ⟨maskWrite 0xc00 (r.setWidth 16) w.x87, maskWrite 0x6000 (r <<< 3) w.mxcsr⟩

/-- `fegetround` of glibc on x86: reads the x87 word only. Called in detail/c99sub_rounding_control.hpp 28. -/
def glibcGet (w : X86Regs) : BitVec 32 := w.x87.setWidth 32 &&& 0xc00

/-- detail/c99sub_rounding_control.hpp 23-36 with glibc on x86, for a type computed in unit `u`. -/
def glibcX86 (u : FpUnit) : Ctl where
  W := X86Regs
  Saved := BitVec 32
  decode w := w.dir u
  get := glibcGet
  set := glibcSet
  upward := glibcSet 0x800
  downward := glibcSet 0x400
  toNearest := glibcSet 0
  towardZero := glibcSet 0xc00

/-- detail/x86_rounding_control.hpp 47-55 with detail/x86gcc_rounding_control.hpp 31-35, for a type computed in unit
`u`: `fldcw` writes the x87 word only. -/
def fldcwX86 (u : FpUnit) : Ctl where
  W := X86Regs
  Saved := BitVec 16
  decode w := w.dir u
  get w := w.x87
  set v w := { w with x87 := v }
  upward w := { w with x87 := 0x1b7f }
  downward w := { w with x87 := 0x177f }
  toNearest w := { w with x87 := 0x137f }
  towardZero w := { w with x87 := 0x1f7f }

/-- The back ends that GNU C uses on x86 (hw_rounding.hpp 21-24), for a type computed in unit `u`. -/
def Backend.x86 (u : FpUnit) : Backend → Option Ctl
  | .c99 => some (glibcX86 u)
  | .x86gcc => some (fldcwX86 u)
  | _ => none

end BI
