import Verif.Spec.HwRounding
import Verif.Proofs.HwRounding
import Verif.Proofs.Instances
import Verif.Props.Mode
import Verif.Props.Arith
import Verif.Props.Platform
/-!
# C88: the choice of the rounding control

hw_rounding.hpp either rejects the compiler or gives exactly one implementation of `rounding_control`, whose switches set
the direction of the unit that computes.
-/

namespace BI
open Set

/-- A program that compiles has exactly one specialisation of `rounding_control` for the built-in types. -/
theorem C88_one (m : Macros) (s : PP) (h : hwRounding m = some s) : ∃ b, s.specs = [b] := by
  have key := firstChoice_good m
  unfold hwRounding at h
  rw [Option.bind_eq_bind, Option.bind_eq_some_iff] at h
  obtain ⟨s', h1, h⟩ := h
  rcases key s' h1 with rfl | ⟨b, rfl⟩
  · cases hf : m.noFenv <;> simp [hf, PP.provide] at h
    subst h
    exact ⟨_, rfl⟩
  · simp at h
    subst h
    exact ⟨b, rfl⟩

example : hwRounding { x86_64 := true, gnuc := true } = some ⟨false, [.c99]⟩ := by decide
example : hwRounding { ppc := true, gnuc := true } = some ⟨false, [.ppc]⟩ := by decide
/-- A compiler for PowerPC that the back end does not know falls back on fenv.h, … -/
example : hwRounding { ppc := true } = some ⟨false, [.c99]⟩ := by decide
/-- … and is rejected if there is none. -/
example : hwRounding { ppc := true, noFenv := true } = none := by decide

/-- A platform without any of the mechanisms is rejected at compile time: no back end, no fenv.h. -/
theorem C88_rejected (m : Macros) (hf : m.noFenv = true) (h1 : m.i386 = false) (h2 : m.mIX86 = false) (h3 : m.borland = false)
    (h4 : m.mX64 = false) (h5 : m.i386Sun = false) (h6 : m.ppc = false) (h7 : m.sparc = false) (h8 : m.alpha = false)
    (h9 : m.ia64 = false) : hwRounding m = none := by
  simp [hwRounding, firstChoice, *]

/-- GNU C and compatible compilers that provide fenv.h are never rejected. If they define the macros `_M_IX86`, `_M_X64` of
another compiler, then for the processors these stand for. -/
theorem C88_gnu (m : Macros) (hg : m.gnuc = true) (hf : m.noFenv = false) (h1 : m.mIX86 = true → m.i386 = true)
    (h2 : m.mX64 = true → m.x86_64 = true) (h3 : m.borland = true → m.i386 = true ∨ m.x86_64 = true)
    (h4 : m.sunpro = false) : ∃ s, hwRounding m = some s := by
  have key := firstChoice_gnu m hg h1 h2 h3 h4
  obtain ⟨s', h⟩ := key
  unfold hwRounding
  rw [h]
  cases hs : s'.noHardware <;> simp [hs, hf, PP.provide]

/-- The back end is one that the compiler understands, for the processor it compiles for. -/
theorem C88_fits (m : Macros) (s : PP) (h : hwRounding m = some s) (b : Backend) (hb : b ∈ s.specs) : b.Fits m := by
  unfold hwRounding at h
  rw [Option.bind_eq_bind, Option.bind_eq_some_iff] at h
  obtain ⟨s', h1, h⟩ := h
  rcases firstChoice_fits m s' h1 with rfl | ⟨b', rfl, hb'⟩
  · cases hf : m.noFenv <;> simp [hf, PP.provide] at h
    subst h
    cases List.mem_singleton.1 hb
    exact hf
  · simp at h
    subst h
    cases List.mem_singleton.1 hb
    exact hb'

example := C88_fits { alpha := true, deccxx := true, dynRounds := true } ⟨false, [.alphaDec]⟩ (by decide) .alphaDec (by decide)
/-- DEC C++ without dynamic rounding is rejected, even if there is fenv.h. -/
example : hwRounding { alpha := true, deccxx := true } = none := by decide
/-- Itanium with another system than HP-UX: fenv.h -/
example : hwRounding { ia64 := true, gnuc := true } = some ⟨false, [.c99]⟩ := by decide

/-- On processors other than x86-64, the back end written for the compiler and the processor is the one that is chosen, not
fenv.h. -/
theorem C88_chosen (m : Macros) (h1 : m.OneCpu) (h2 : m.OneCompiler) (h3 : m.x86_64 = false) (h4 : m.i386Sun = true → m.sunpro = true)
    (h5 : m.borland = true → m.i386 = true ∨ m.mIX86 = true) (b : Backend) (hb : b.Fits m) (hc : b ≠ .c99) :
    hwRounding m = some ⟨false, [b]⟩ := by
  obtain ⟨p1, p2, p3, p4⟩ := oneCpu h1
  obtain ⟨q1, q2, q3⟩ := oneCompiler h2
  have nb : m.i386 = false → m.mIX86 = false → m.borland = false := fun a b => by
    cases h : m.borland
    · rfl
    · exact absurd (h5 h) (by simp [a, b])
  unfold hwRounding firstChoice
  cases b with
  | c99 => exact absurd rfl hc
  | x86gcc =>
    obtain ⟨hg, hi⟩ := hb
    have hi : m.i386 = true := by simpa [h3] using hi
    have hg : (m.gnuc || m.borland && m.clang) = true := by simpa using hg
    simp [h3, hi, includeX86, hg, PP.provide]
  | bcc =>
    obtain ⟨hb, hk, hi⟩ := hb
    simp [h3, hi, includeX86, (q1 hb), hb, hk, PP.provide]
  | msvc =>
    obtain ⟨hb, hk⟩ := hb
    obtain ⟨g1, g2⟩ := q2 hb
    have hx := x86_arm h3 h4 hk
    simp only [h3, Bool.false_and, Bool.false_eq_true, if_false]
    have e : includeX86 m ⟨true, []⟩ = some ⟨false, [.msvc]⟩ := by simp [includeX86, g1, g2, hb, PP.provide]
    rcases hx with hx | hx
    · rw [if_pos hx, e]; rfl
    · rw [if_pos hx, ite_self, e]; rfl
  | x86c99 =>
    obtain ⟨hb, hk⟩ := hb
    obtain ⟨g1, g2, g3⟩ := q3 hb
    have hb : (m.mwerksIcc || m.sunpro) = true := by simpa using hb
    have hx := x86_arm h3 h4 hk
    simp only [h3, Bool.false_and, Bool.false_eq_true, if_false]
    have e : includeX86 m ⟨true, []⟩ = some ⟨false, [.x86c99]⟩ := by simp [includeX86, g1, g2, g3, hb, PP.provide]
    rcases hx with hx | hx
    · rw [if_pos hx, e]; rfl
    · rw [if_pos hx, ite_self, e]; rfl
  | ppc =>
    obtain ⟨hp, hb⟩ := hb
    obtain ⟨a1, a2, a3, a4⟩ := p1 (.inl hp)
    have hb : (m.gnuc || m.ibm700) = true := by simpa using hb
    simp [h3, a1, a2, a3, a4, nb a1 a2, hp, includePpc, hb, PP.provide]
  | sparc =>
    obtain ⟨hp, hb⟩ := hb
    obtain ⟨a1, a2, a3, a4⟩ := p1 (.inr (.inl hp))
    simp [h3, a1, a2, a3, a4, nb a1 a2, hp, p2 hp, includeSparc, hb, PP.provide]
  | sparcSun =>
    obtain ⟨hp, hb⟩ := hb
    obtain ⟨a1, a2, a3, a4⟩ := p1 (.inr (.inl hp))
    simp [h3, a1, a2, a3, a4, nb a1 a2, hp, p2 hp, includeSparc, hb, (q3 (.inr hb)).1, PP.provide]
  | alpha =>
    obtain ⟨hp, hb⟩ := hb
    obtain ⟨a1, a2, a3, a4⟩ := p1 (.inr (.inr (.inl hp)))
    simp [h3, a1, a2, a3, a4, nb a1 a2, hp, p3 hp, includeAlpha, hb, PP.provide]
  | alphaDec =>
    obtain ⟨hp, hb, hd⟩ := hb
    obtain ⟨a1, a2, a3, a4⟩ := p1 (.inr (.inr (.inl hp)))
    have hg := dec_not_gnu h2 hb
    have hb : (m.digital || m.deccxx) = true := by simpa using hb
    cases hc : m.deccxx
    · simp [hc] at hb
      simp [h3, a1, a2, a3, a4, nb a1 a2, hp, p3 hp, includeAlpha, hg, hb, hc, PP.provide]
    · simp [h3, a1, a2, a3, a4, nb a1 a2, hp, p3 hp, includeAlpha, hg, hc, hd hc, PP.provide]
  | ia64 =>
    obtain ⟨hp, hb⟩ := hb
    obtain ⟨a1, a2, a3, a4⟩ := p1 (.inr (.inr (.inr hp)))
    simp [h3, a1, a2, a3, a4, nb a1 a2, hp, p4 hp, includeIa64, hb, PP.provide]

example := C88_chosen { sparc := true, sunpro := true } (by unfold Macros.OneCpu; decide) (by unfold Macros.OneCompiler; decide) rfl (fun h => by cases h)
  (fun h => by cases h) .sparcSun ⟨rfl, rfl⟩ (by decide)

/-- On processors other than x86: a compiler for which there is no back end gets fenv.h. The exceptions are the two cases in
which a back end stops the compilation itself: SPARC, and DEC C++ without dynamic rounding. -/
theorem C88_fallback (m : Macros) (hf : m.noFenv = false) (hx : ¬ m.X86) (hb : m.borland = true → m.clang = true)
    (hs : m.sparc = false) (hd : m.alpha = true → m.deccxx = true → m.dynRounds = true)
    (h : ∀ b : Backend, b.Fits m → b = .c99) : hwRounding m = some ⟨false, [.c99]⟩ := by
  simp only [Macros.X86, not_or, Bool.not_eq_true] at hx
  obtain ⟨a1, a2, a3, a4, a5⟩ := hx
  have e1 : (m.borland && !m.clang) = false := by
    cases h : m.borland
    · rfl
    · simp [hb h]
  have hp : m.ppc = true → (m.gnuc || m.ibm700) = false := fun hp => by
    by_contra hc
    exact absurd (h .ppc ⟨hp, by simpa [-Bool.or_eq_false_iff] using hc⟩) (by decide)
  have ha : m.alpha = true → (m.gnuc || m.digital || m.deccxx) = false := fun ha => by
    by_contra hc
    cases hg : m.gnuc
    · refine absurd (h .alphaDec ⟨ha, by simpa [hg, -Bool.or_eq_false_iff] using hc, hd ha⟩) (by decide)
    · exact absurd (h .alpha ⟨ha, hg⟩) (by decide)
  have hi : m.ia64 = true → m.hpux = false := fun hi => by
    by_contra hc
    exact absurd (h .ia64 ⟨hi, by simpa using hc⟩) (by decide)
  simp only [hwRounding, firstChoice, a1, a2, a3, a4, a5, e1, hf, Bool.false_and, Bool.or_false, Bool.false_eq_true, if_false]
  cases h1 : m.ppc
  · cases h3 : m.alpha
    · cases h4 : m.ia64
      · simp [hs, PP.provide]
      · simp [hs, includeIa64, hi h4, PP.provide]
    · simp only [includeAlpha, ha h3, hs]
      simp [PP.provide]
  · simp only [includePpc, hp h1]
    simp [PP.provide]

/-- A processor the library does not know, PowerPC with an unknown compiler, Itanium with Linux. -/
example := C88_fallback {} rfl (by simp [Macros.X86]) (by simp) rfl (by simp) (fun b => by cases b <;> simp [Backend.Fits])
example := C88_fallback { ppc := true } rfl (by simp [Macros.X86]) (by simp) rfl (by simp)
  (fun b => by cases b <;> simp [Backend.Fits])
example := C88_fallback { ia64 := true, gnuc := true } rfl (by simp [Macros.X86]) (by simp) rfl (by simp)
  (fun b => by cases b <;> simp [Backend.Fits, Macros.X86])
/-- An unknown compiler for SPARC is rejected. -/
theorem C88_sparc_rejected : hwRounding { sparc := true } = none := by decide

/-- Every back end sets the directions it names and restores the control word it saved. Missing from the full claim: the
Microsoft control words with the reserved value of the precision field (`C40_msvc_partial`, `C40_msvc_reserved`). -/
theorem C88_backends_partial (fe : RMode → Int) (hfe : ∀ a b, fe a = fe b → a = b) (x64 : Bool) (b : Backend) (hm : b ≠ .msvc) :
    SetsModes (b.ctl fe x64) (fun _ => True) ∧ RoundTrips (b.ctl fe x64) (fun _ => True) := by
  cases b with
  | c99 | x86c99 | sparcSun | alphaDec | ia64 => exact C40_c99 Unit fe hfe
  | x86gcc => exact C40_x86gcc
  | bcc => exact C40_bcc
  | msvc => exact absurd rfl hm
  | ppc => exact C40_ppc
  | sparc => exact C40_sparc
  | alpha => exact C40_alpha

/-! ## The unit that computes -/

/-- GNU C on x86 with the headers of glibc: the back end that is chosen switches the unit in which values of the type are
computed. Missing from the full claim: 32-bit code that uses SSE, and 64-bit targets without fenv.h; both are wrong
(`C88_sse_violated`, `C88_sse_encloses_violated`). -/
theorem C88_unit_partial (m : Macros) (sseMath longDouble : Bool) (hg : m.gnuc = true) (hx : m.x86_64 = true ∨ m.i386 = true)
    (hf : m.x86_64 = true → m.noFenv = false) (hs : m.x86_64 = false → sseMath = false) :
    ∃ b c, hwRounding m = some ⟨false, [b]⟩ ∧ b.x86 (computesIn m.x86_64 sseMath longDouble) = some c ∧
      SetsModes c (fun _ => True) := by
  cases h64 : m.x86_64
  · have h32 : m.i386 = true := by simpa [h64] using hx
    have := hs h64
    subst this
    refine ⟨.x86gcc, _, ?_, rfl, ?_⟩
    · simp [hwRounding, firstChoice, includeX86, PP.provide, h64, h32, hg]
    · have : computesIn false false longDouble = .x87 := by cases longDouble <;> rfl
      rw [this]
      intro w _
      refine ⟨?_, ?_, ?_, ?_⟩ <;> simp [fldcwX86, X86Regs.dir, x87Dir]
  · refine ⟨.c99, _, ?_, rfl, ?_⟩
    · simp [hwRounding, firstChoice, PP.provide, h64, hf h64]
    · exact fun w _ => ⟨(glibcSet_dir (by decide) w _).trans (by decide), (glibcSet_dir (by decide) w _).trans (by decide),
        (glibcSet_dir (by decide) w _).trans (by decide), (glibcSet_dir (by decide) w _).trans (by decide)⟩

example := C88_unit_partial { x86_64 := true, gnuc := true } false true rfl (.inl rfl) (fun _ => rfl) (fun h => by cases h)
example := C88_unit_partial { i386 := true, gnuc := true } false false rfl (.inr rfl) (fun h => by cases h) (fun _ => rfl)

/-- With `fesetround` of glibc, saving, switching and restoring is faithful exactly for words in which the two units have the
same direction: the direction is read from the x87 and written to both. -/
theorem C88_restores_iff (u : FpUnit) (w : X86Regs) :
    (∀ w', Switches (glibcX86 u) w w' → (glibcX86 u).set ((glibcX86 u).get w) w' = w) ↔ w.Agree := by
  constructor
  · intro h
    have h := congrArg (fun w : X86Regs => w.dir .sse) (h w .refl)
    exact (glibcGet_dir w).symm.trans ((glibcSet_dir (glibcGet_field w) w .sse).symm.trans h)
  · intro h w' hw
    refine glibc_restore h ?_
    exact Switches.rel (c := glibcX86 u) (R := X86Regs.Same) (fun _ => ⟨rfl, rfl⟩) (fun _ _ _ h h' => ⟨h.1.trans h'.1, h.2.trans h'.2⟩)
      (glibcSet_same _) (glibcSet_same _) (glibcSet_same _) (glibcSet_same _) hw

/-- `interval<double>` on x86-64 with glibc, both registers being part of the state. All theorems about environments hold for
it: from any word in which the units agree, calls return enclosures and restore both registers. -/
def dblX86 : Env (Fl Fmt.double) := x86Env .sse .opp (fun _ _ x => some x) .strict true

/-- The registers after the start of a program are such words. -/
example : dblX86.Valid ⟨(⟨0x037f, 0x1f80⟩ : X86Regs), fun _ => true⟩ := by change X86Regs.dir _ _ = X86Regs.dir _ _; decide

/-- Programs leave both registers as they find them, if the units agree at the start. Missing from the full claim: words in
which they do not (`C88_restore_violated`), and `nth_root` (`C06_nth_root_leaks`). -/
theorem C88_program_partial {α : Type} (p : Prog (Fl Fmt.double) α) (hp : p.All (fun i => Call.Protected i) false) (w : X86Regs)
    (sched : ℕ → Bool) (hw : w.Agree) : (p.run dblX86.P (⟨w, sched⟩ : dblX86.State)).2.cw = w :=
  C06_program_partial (V := dblX86) p hp ⟨w, sched⟩ hw

example := C88_program_partial (.call (.addII (litI 1 2) (litI 3 4)) .ret) ⟨trivial, fun _ => trivial⟩ ⟨0x037f, 0x1f80⟩ (fun _ => true)
  (by unfold X86Regs.Agree; decide)

/-! ## Units that do not agree -/

section
variable {T : Type} [Num T] {u : FpUnit} {k : RKind} {lib : Lib T} {chk : ChkSpec} {nd : Bool} {α : Type}

/-- Whatever the two registers hold at the start, even different directions, the outcome of a program is the same. Missing from
the full claim: calls that depend on the direction in force (not `Env.ModeFree`). -/
theorem C88_any_registers_partial (hk : k ≠ .exact) (p : Prog T α) (hp : p.All (fun i => (x86Env u k lib chk nd).ModeFree i) false)
    (s s' : (x86Env u k lib chk nd).State) : (p.run (x86Env u k lib chk nd).P s).1 = (p.run (x86Env u k lib chk nd).P s').1 := by
  have h := p.run_sim (lvl_loose (u := u) k lib chk nd hk) (i := false) (fun h => by cases h) hp
  exact (h s trivial).1.trans (h s' trivial).1.symm

/-- What programs do to the registers: the x87 word is restored, and MXCSR too but for its direction, which may become that of
the x87. Missing from the full claim: the direction of MXCSR (`C88_restore_violated`), and `nth_root` (`C06_nth_root_leaks`). -/
theorem C88_registers_partial (hk : k ≠ .exact) (p : Prog T α) (hp : p.All (fun i => Call.Protected i) false)
    (w : X86Regs) (sched : ℕ → Bool) :
    let w' : X86Regs := (p.run (x86Env u k lib chk nd).P ⟨w, sched⟩).2.cw
    w'.x87 = w.x87 ∧ (w'.mxcsr = w.mxcsr ∨
      (w'.mxcsr &&& ~~~0x6000#32 = w.mxcsr &&& ~~~0x6000#32 ∧ w'.dir .sse = w.dir .x87)) := by
  have h := (p.run_keep (lvl_loose (u := u) k lib chk nd hk) (i := false) (fun h => by cases h) hp ⟨w, sched⟩ trivial).1
  rcases h with h | h
  · exact ⟨congrArg X86Regs.x87 h, .inl (congrArg X86Regs.mxcsr h)⟩
  · intro w'
    have e : w' = w.level := h
    rw [e]
    exact ⟨w.level_x87, .inr ⟨w.level_same.2.symm, w.level_dir .sse⟩⟩

/-- So the theorems about what calls return hold for all contents of the registers. -/
theorem C88_returns (hk : k ≠ .exact) (c : Call T α) (hc : (x86Env u k lib chk nd).ModeFree false c) {Q : α → Prop}
    (h : (x86Env u k lib chk nd).Returns (c.run (x86Env u k lib chk nd).P) Q) (s : (x86Env u k lib chk nd).State) :
    ∃ z, (c.run (x86Env u k lib chk nd).P s).1 = .ok z ∧ Q z := by
  obtain ⟨z, h1, -, h3⟩ := h ⟨(⟨0x037f, 0x1f80⟩ : X86Regs), fun _ => true⟩
    (show X86Regs.dir ⟨0x037f, 0x1f80⟩ _ = X86Regs.dir ⟨0x037f, 0x1f80⟩ _ by decide)
  have e := c.run_sim (lvl_loose (u := u) k lib chk nd hk) (i := false) (fun h => by cases h) hc
  exact ⟨z, ((e s trivial).1.trans (e _ trivial).1.symm).trans h1, h3⟩
end

/-- An addition of `interval<double>` encloses whatever the directions of the two units are. -/
theorem C88_add {x y : Itv (Fl Fmt.double)} (hx : (γ x).Nonempty) (hy : (γ y).Nonempty) (w : X86Regs) (sched : ℕ → Bool) :
    ∃ z, (addII dblX86.P x y ⟨w, sched⟩).1 = .ok z ∧ ∀ a ∈ γ x, ∀ b ∈ γ y, a + b ∈ γ z :=
  C88_returns (u := .sse) (by decide) (.addII x y) trivial (C01_add (V := dblX86) (dblX86.fl_directed (by decide)) hx hy) ⟨w, sched⟩

/-- The units disagree. -/
example := C88_add (x := litI 1 2) (y := litI 3 4) ⟨1, in_lit⟩ ⟨3, in_lit⟩ ⟨0x037f, 0x3f80⟩ (fun _ => true)
example := C88_any_registers_partial (u := .sse) (k := .opp) (lib := fun _ _ x => some x) (chk := .strict) (nd := true) (by decide)
  (.call (.addII (litI 1 2) (litI 3 4 : Itv (Fl Fmt.double))) .ret) (by exact ⟨trivial, fun _ => trivial⟩)
  ⟨(⟨0x037f, 0x3f80⟩ : X86Regs), fun _ => true⟩ ⟨(⟨0x0b7f, 0x1f80⟩ : X86Regs), fun _ => false⟩
example := C88_registers_partial (u := .sse) (k := .opp) (lib := fun _ _ x => some x) (chk := .strict) (nd := true) (by decide)
  (.call (.addII (litI 1 2) (litI 3 4 : Itv (Fl Fmt.double))) .ret) (by exact ⟨trivial, fun _ => trivial⟩) ⟨0x037f, 0x3f80⟩ (fun _ => true)

/-! ## Where the claim fails -/

/-- A program that has switched SSE to downward rounding through MXCSR loses this setting in an addition. -/
theorem C88_restore_violated :
    let w : X86Regs := ⟨0x037f, 0x3f80⟩
    let s : dblX86.State := ⟨w, fun _ => true⟩
    w.dir .sse = .down ∧ ((addII dblX86.P (litI 1 2) (litI 3 4) s).2.cw : X86Regs).dir .sse = .near := by
  exact ⟨by decide, by decide +kernel⟩

/-- 32-bit code that computes in SSE registers, and 64-bit targets without fenv.h whose compiler defines `_M_X64`: the back end
switches the x87 only. -/
theorem C88_sse_violated :
    hwRounding { i386 := true, gnuc := true } = some ⟨false, [.x86gcc]⟩ ∧
    hwRounding { x86_64 := true, gnuc := true, noFenv := true, mX64 := true } = some ⟨false, [.x86gcc]⟩ ∧
    Backend.x86gcc.x86 (computesIn false true false) = some (fldcwX86 .sse) ∧
    Backend.x86gcc.x86 (computesIn true false false) = some (fldcwX86 .sse) ∧
    ∀ w : X86Regs, (fldcwX86 .sse).decode ((fldcwX86 .sse).upward w) = w.dir .sse ∧
      (fldcwX86 .sse).decode ((fldcwX86 .sse).downward w) = w.dir .sse :=
  ⟨by decide, by decide, rfl, rfl, fun _ => ⟨rfl, rfl⟩⟩

/-- A positive number much smaller than the spacing of numbers at 1. -/
def tiny : Fl Fmt.double := .nz ((2 : ℚ) ^ (-60 : ℤ)) ⟨by norm_num, 1, -60, by decide, by decide, by decide, by norm_num⟩

/-- Then results do not enclose: `[1, 1] + [t, t] = [1, 1]` for a number `t > 0`. -/
theorem C88_sse_encloses_violated :
    let s : St (fldcwX86 .sse).W := ⟨(⟨0x037f, 0x1f80⟩ : X86Regs), fun _ => true⟩
    let P : Policies (M (fldcwX86 .sse).W) (Fl Fmt.double) := libPolicies (fldcwX86 .sse) .opp (fun _ _ x => some x) (ChkSpec.strict.eval _ true)
    ∃ z a b, (addII P (litI 1 1) ⟨tiny, tiny⟩ s).1 = .ok z ∧ a ∈ γ (litI 1 1 : Itv (Fl Fmt.double)) ∧
      b ∈ γ (⟨tiny, tiny⟩ : Itv (Fl Fmt.double)) ∧ a + b ∉ γ z := by
  refine ⟨litI 1 1, 1, (2 : ℝ) ^ (-60 : ℤ), by decide +kernel, in_lit, ?_, ?_⟩
  · refine ⟨_, _, rfl, rfl, ?_, ?_⟩ <;> · push_cast; exact le_refl _
  · rw [mem_litI (by decide) (by decide)]
    norm_num

end BI
