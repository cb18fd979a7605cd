import Verif.Model.HwRounding
/-! # In which unit GNU C computes on x86 -/

namespace BI

/-- Code for `long double` uses the x87; code for `float` and `double` uses SSE on 64-bit targets, and on 32-bit targets if
asked to (`-mfpmath=sse`), else the x87. -/
def computesIn (bits64 sseMath longDouble : Bool) : FpUnit :=
  if longDouble then .x87 else if bits64 || sseMath then .sse else .x87

/-- The two units round in the same direction. -/
def X86Regs.Agree (w : X86Regs) : Prop := w.dir .x87 = w.dir .sse

/-! # For which compilers the back ends are written -/

/-- Macros of x86 processors, 32 and 64 bit. -/
def Macros.X86 (m : Macros) : Prop := m.i386 ∨ m.x86_64 ∨ m.mIX86 ∨ m.mX64 ∨ m.i386Sun

/-- The compiler understands the code of the back end (assembler syntax, intrinsic functions, headers) and the code is for
the processor. DEC C++ rounds as the control word says only if asked to. -/
def Backend.Fits (m : Macros) : Backend → Prop
  | .c99 => m.noFenv = false
  | .x86gcc => (m.gnuc ∨ m.borland ∧ m.clang) ∧ (m.i386 ∨ m.x86_64)
  | .bcc => m.borland ∧ ¬ m.clang ∧ m.mIX86
  | .msvc => m.msc ∧ m.X86
  | .x86c99 => (m.mwerksIcc ∨ m.sunpro) ∧ m.X86
  | .ppc => m.ppc ∧ (m.gnuc ∨ m.ibm700)
  | .sparc => m.sparc ∧ m.gnuc
  | .sparcSun => m.sparc ∧ m.sunpro
  | .alpha => m.alpha ∧ m.gnuc
  | .alphaDec => m.alpha ∧ (m.digital ∨ m.deccxx) ∧ (m.deccxx → m.dynRounds)
  | .ia64 => m.ia64 ∧ m.hpux

/-- The macros are those of one processor, … -/
def Macros.OneCpu (m : Macros) : Prop :=
  ([m.i386 || m.mIX86 || m.mX64 || m.i386Sun || m.x86_64, m.ppc, m.sparc, m.alpha, m.ia64].filter id).length ≤ 1

/-- … and of one compiler. -/
def Macros.OneCompiler (m : Macros) : Prop :=
  ([m.gnuc, m.borland, m.msc, m.mwerksIcc, m.sunpro, m.digital || m.deccxx, m.ibm700].filter id).length ≤ 1

end BI
