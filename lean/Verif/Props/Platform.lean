import Verif.Spec.Control
import Verif.Proofs.PlatformLaws
/-!
# C40: control-word encodings

For each back end: the four switches set the direction they name (in the vendor's encoding), and saving, switching any
number of times and restoring is the identity. For the Microsoft back end the two conversion functions are inverse to
each other on the fields they handle.
-/

namespace BI

theorem C40_x86gcc : SetsModes x86gcc (fun _ => True) ∧ RoundTrips x86gcc (fun _ => True) :=
  ⟨regCtl_setsModes _ _ _ _ _ _ _ _ _ (by decide) (by decide) (by decide) (by decide) (by decide) (by decide),
    regCtl_roundTrips _ _ _ _ _ _ _ _ _⟩

theorem C40_x86fast :
    (SetsModes x86fastFloat (fun _ => True) ∧ RoundTrips x86fastFloat (fun _ => True)) ∧
    (SetsModes x86fastDouble (fun _ => True) ∧ RoundTrips x86fastDouble (fun _ => True)) ∧
    (SetsModes x86fastLongDouble (fun _ => True) ∧ RoundTrips x86fastLongDouble (fun _ => True)) :=
  ⟨⟨regCtl_setsModes _ _ _ _ _ _ _ _ _ (by decide) (by decide) (by decide) (by decide) (by decide) (by decide),
      regCtl_roundTrips _ _ _ _ _ _ _ _ _⟩,
    ⟨regCtl_setsModes _ _ _ _ _ _ _ _ _ (by decide) (by decide) (by decide) (by decide) (by decide) (by decide),
      regCtl_roundTrips _ _ _ _ _ _ _ _ _⟩,
    ⟨regCtl_setsModes _ _ _ _ _ _ _ _ _ (by decide) (by decide) (by decide) (by decide) (by decide) (by decide),
      regCtl_roundTrips _ _ _ _ _ _ _ _ _⟩⟩

theorem C40_bcc : SetsModes bcc (fun _ => True) ∧ RoundTrips bcc (fun _ => True) :=
  ⟨regCtl_setsModes _ _ _ _ _ _ _ _ _ (by decide) (by decide) (by decide) (by decide) (by decide) (by decide),
    regCtl_roundTrips _ _ _ _ _ _ _ _ _⟩

theorem C40_ppc : SetsModes ppc (fun _ => True) ∧ RoundTrips ppc (fun _ => True) :=
  ⟨regCtl_setsModes _ _ _ _ _ _ _ _ _ (by decide) (by decide) (by decide) (by decide) (by decide) (by decide),
    regCtl_roundTrips _ _ _ _ _ _ _ _ _⟩

theorem C40_sparc : SetsModes sparc (fun _ => True) ∧ RoundTrips sparc (fun _ => True) :=
  ⟨regCtl_setsModes _ _ _ _ _ _ _ _ _ (by decide) (by decide) (by decide) (by decide) (by decide) (by decide),
    regCtl_roundTrips _ _ _ _ _ _ _ _ _⟩

theorem C40_alpha : SetsModes alpha (fun _ => True) ∧ RoundTrips alpha (fun _ => True) :=
  ⟨regCtl_setsModes _ _ _ _ _ _ _ _ _ (by decide) (by decide) (by decide) (by decide) (by decide) (by decide),
    regCtl_roundTrips _ _ _ _ _ _ _ _ _⟩

/-- Back ends working through `fesetround`, for any four distinct values of the macros. -/
theorem C40_c99 (X : Type) (fe : RMode → Int) (hfe : ∀ a b, fe a = fe b → a = b) :
    SetsModes (c99 X fe) (fun _ => True) ∧ RoundTrips (c99 X fe) (fun _ => True) := by
  refine ⟨fun (w : FEnv X) _ => ⟨?_, ?_, ?_, ?_⟩, fun (w w' : FEnv X) _ h => ?_⟩
  · change (fesetround fe (fe .up) w).dir = _; rw [fesetround_fe hfe]
  · change (fesetround fe (fe .down) w).dir = _; rw [fesetround_fe hfe]
  · change (fesetround fe (fe .near) w).dir = _; rw [fesetround_fe hfe]
  · change (fesetround fe (fe .zero) w).dir = _; rw [fesetround_fe hfe]
  · refine (c99_laws X fe hfe).restore w w' trivial ?_
    have hs : ∀ (r : RMode) (v : FEnv X), v.other = (fesetround fe (fe r) v).other :=
      fun r v => by rw [fesetround_fe hfe]
    exact Switches.rel (R := fun w w' : FEnv X => w.other = w'.other) (fun _ => rfl) (fun _ _ _ => Eq.trans)
      (hs _) (hs _) (hs _) (hs _) h

example : ∃ fe : RMode → Int, ∀ a b, fe a = fe b → a = b := ⟨feGlibc, feGlibc_inj⟩

/-- Microsoft back end. Missing from the full claim: control words whose precision field holds the reserved value `_MCW_PC`, for
which it is false (`C40_msvc_reserved`). -/
theorem C40_msvc_partial (x64 : Bool) :
    SetsModes (msvc x64) (fun w : BitVec 32 => w &&& MCW_PC ≠ MCW_PC) ∧
    RoundTrips (msvc x64) (fun w : BitVec 32 => w &&& MCW_PC ≠ MCW_PC) := by
  refine ⟨fun (w : BitVec 32) _ => ⟨?_, ?_, ?_, ?_⟩, fun (w w' : BitVec 32) hw h => ?_⟩
  · exact (msvcSet_decode x64 _ w).trans (by decide)
  · exact (msvcSet_decode x64 _ w).trans (by decide)
  · exact (msvcSet_decode x64 _ w).trans (by decide)
  · exact (msvcSet_decode x64 _ w).trans (by decide)
  · refine (msvc_laws x64).restore w w' hw ?_
    exact Switches.rel (R := fun w w' : BitVec 32 => w &&& ~~~(msvcMask x64) = w' &&& ~~~(msvcMask x64))
      (fun _ => rfl) (fun _ _ _ => Eq.trans) (fun _ => maskWrite_same ..) (fun _ => maskWrite_same ..)
      (fun _ => maskWrite_same ..) (fun _ => maskWrite_same ..) h

/-- The default word of Visual C++ satisfies the hypothesis. -/
example : (0x0009001f : BitVec 32) &&& MCW_PC ≠ MCW_PC := by decide

/-- With the reserved value the word is not restored: the hypothesis is needed. -/
theorem C40_msvc_reserved : ¬ RoundTrips (msvc false) (fun _ => True) := by
  intro h
  have h' : msvcSet false (msvc2hard 0x0003001f) 0x0003001f = 0x0003001f :=
    h (0x0003001f : BitVec 32) (0x0003001f : BitVec 32) trivial .refl
  revert h'; decide +kernel

/-- The two conversions of the Microsoft back end are inverse to each other: from the `_control87` encoding, the reserved
value of the precision field excepted, … -/
theorem C40_msvc_conv_partial (n : BitVec 32) (h : n &&& MCW_PC ≠ MCW_PC) :
    hard2msvc (msvc2hard n) = n &&& (MCW_EM ||| MCW_RC ||| MCW_PC ||| MCW_IC) := hard2msvc_msvc2hard n h

/-- … and from the hardware encoding; the reserved precision `0x100` excepted. -/
theorem C40_msvc_conv_back_partial (m : BitVec 16) (h : m &&& 0x300 ≠ 0x100) : msvc2hard (hard2msvc m) = m &&& 0x1f3f := by
  rw [hard2msvc_mask, hard_decompose]
  refine hard_table _ _ _ _ _ _ _ _ _ _ _ ?_
  rintro ⟨h1, h2⟩
  apply h
  apply BitVec.eq_of_getLsbD_eq
  intro i hi
  simp only [BitVec.getLsbD_and]
  interval_cases i <;> simp_all

/-- The words set by the library, in hardware encoding, satisfy the hypothesis. -/
example : (0x1b7f : BitVec 16) &&& 0x300 ≠ 0x100 := by decide

/-- The constants of the x86 back ends mask all exceptions, choose the precision of the type and differ in the
direction only. -/
theorem C40_x86_constants (w : BitVec 16) :
    (∀ v ∈ ([x86gcc.upward w, x86gcc.downward w, x86gcc.toNearest w, x86gcc.towardZero w] : List (BitVec 16)),
      v &&& 0xf3ff = 0x137f) ∧
    (∀ v ∈ ([x86fastFloat.upward w, x86fastFloat.downward w, x86fastFloat.toNearest w, x86fastFloat.towardZero w] :
        List (BitVec 16)), v &&& 0xf3ff = 0x107f) ∧
    (∀ v ∈ ([x86fastDouble.upward w, x86fastDouble.downward w, x86fastDouble.toNearest w, x86fastDouble.towardZero w] :
        List (BitVec 16)), v &&& 0xf3ff = 0x127f) := by
  have h : ∀ u : BitVec 16, maskWrite (BitVec.allOnes 16) u w = u := fun u => maskWrite_all u w
  have h1 : ([x86gcc.upward w, x86gcc.downward w, x86gcc.toNearest w, x86gcc.towardZero w] : List (BitVec 16)) =
      [0x1b7f, 0x177f, 0x137f, 0x1f7f] := by simp only [x86gcc, regCtl, h]
  have h2 : ([x86fastFloat.upward w, x86fastFloat.downward w, x86fastFloat.toNearest w, x86fastFloat.towardZero w] :
      List (BitVec 16)) = [0x187f, 0x147f, 0x107f, 0x1c7f] := by simp only [x86fastFloat, regCtl, h]
  have h3 : ([x86fastDouble.upward w, x86fastDouble.downward w, x86fastDouble.toNearest w,
      x86fastDouble.towardZero w] : List (BitVec 16)) = [0x1a7f, 0x167f, 0x127f, 0x1e7f] := by
    simp only [x86fastDouble, regCtl, h]
  rw [h1, h2, h3]
  simp only [List.forall_mem_cons, List.not_mem_nil, false_imp_iff, implies_true, and_true]
  decide

/-- A word that is written in part has the written bits where they are looked at. -/
theorem maskWrite_and {n : ℕ} {mask v w b : BitVec n} (h : b &&& mask = b) : maskWrite mask v w &&& b = v &&& b := by
  apply BitVec.eq_of_getLsbD_eq
  intro i hi
  have e := congrArg (fun x : BitVec n => x.getLsbD i) h
  simp only [maskWrite, BitVec.getLsbD_and, BitVec.getLsbD_or, BitVec.getLsbD_not] at e ⊢
  cases h1 : b.getLsbD i <;> cases h2 : mask.getLsbD i <;> simp_all

/-- While the library computes, no floating-point exception is trapped: all six exceptions are masked in the x87 words and in
the encoding of `_control87`, and the enable bits are clear in the registers of PowerPC (bits 7-3) and SPARC (27-23). -/
theorem C40_no_traps :
    EachSwitch x86gcc (fun w : BitVec 16 => w &&& 0x3f = 0x3f) ∧ EachSwitch x86fastFloat (fun w : BitVec 16 => w &&& 0x3f = 0x3f) ∧
    EachSwitch x86fastDouble (fun w : BitVec 16 => w &&& 0x3f = 0x3f) ∧
    EachSwitch x86fastLongDouble (fun w : BitVec 16 => w &&& 0x3f = 0x3f) ∧ EachSwitch bcc (fun w : BitVec 32 => w &&& 0x3f = 0x3f) ∧
    (∀ x64, EachSwitch (msvc x64) (fun w : BitVec 32 => w &&& 0x0008001f = 0x0008001f)) ∧
    EachSwitch ppc (fun w : BitVec 64 => w &&& 0xf8 = 0) ∧ EachSwitch sparc (fun w : BitVec 32 => w &&& 0x0f800000 = 0) := by
  refine ⟨fun w => ⟨?_, ?_, ?_, ?_⟩, fun w => ⟨?_, ?_, ?_, ?_⟩, fun w => ⟨?_, ?_, ?_, ?_⟩, fun w => ⟨?_, ?_, ?_, ?_⟩, fun w => ⟨?_, ?_, ?_, ?_⟩,
    fun x64 w => ⟨?_, ?_, ?_, ?_⟩, fun w => ⟨?_, ?_, ?_, ?_⟩, fun w => ⟨?_, ?_, ?_, ?_⟩⟩ <;>
  first
    | exact (maskWrite_and (by decide)).trans (by decide)
    | exact (maskWrite_and (by cases x64 <;> decide)).trans (by decide +kernel)

/-- On Alpha the traps for overflow (bit 51) and inexact results (bit 62) are disabled, as the comment in the header says; the
word says nothing of the other three. -/
theorem C40_alpha_traps : EachSwitch alpha (fun w : BitVec 64 => w &&& 0x4008000000000000 = 0x4008000000000000) := fun w =>
  ⟨(maskWrite_and (by decide)).trans (by decide), (maskWrite_and (by decide)).trans (by decide),
    (maskWrite_and (by decide)).trans (by decide), (maskWrite_and (by decide)).trans (by decide)⟩

/-- test/msvc_x64_flags.cpp: on the 64-bit target `_control87` is never asked to change a field other than those for exceptions
and rounding (`_MCW_DN` is `0x03000000`), which its debug version refuses. -/
theorem C40_x64_mask : msvcMask true &&& ~~~(0x03000000 ||| 0x0008001f ||| 0x00000300) = 0 := by decide

end BI
