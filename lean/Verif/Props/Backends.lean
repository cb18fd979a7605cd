import Verif.Props.HwRounding
import Verif.Props.Expr
/-!
# C88: programs on every back end

The theorems about environments, for the rounding control that hw_rounding.hpp chooses, whichever it is.
-/

namespace BI
open Set

/-- Control words a back end can save and restore: all, but for the reserved value of the precision field of the Microsoft
library. -/
def Backend.Usable (fe : RMode → Int) (x64 : Bool) : (b : Backend) → (b.ctl fe x64).W → Prop
  | .msvc => fun w : BitVec 32 => w &&& MCW_PC ≠ MCW_PC
  | .c99 | .x86c99 | .sparcSun | .alphaDec | .ia64 | .x86gcc | .bcc | .ppc | .sparc | .alpha => fun _ => True

/-- The laws of the back ends. -/
def Backend.laws (fe : RMode → Int) (hfe : ∀ a b, fe a = fe b → a = b) (x64 : Bool) : (b : Backend) → CtlLaws (b.ctl fe x64)
  | .c99 | .x86c99 | .sparcSun | .alphaDec | .ia64 => c99_laws Unit fe hfe
  | .x86gcc => x86gcc_laws
  | .bcc => bcc_laws
  | .msvc => msvc_laws x64
  | .ppc => ppc_laws
  | .sparc => sparc_laws
  | .alpha => alpha_laws

theorem Backend.usable_valid {fe : RMode → Int} (hfe : ∀ a b, fe a = fe b → a = b) {x64 : Bool} {b : Backend}
    {w : (b.ctl fe x64).W} (h : b.Usable fe x64 w) : (b.laws fe hfe x64).valid w := by
  cases b <;> exact h

section
variable {T : Type} [Num T]

/-- An interval type on a back end. -/
def Backend.env (fe : RMode → Int) (hfe : ∀ a b, fe a = fe b → a = b) (x64 : Bool) (b : Backend) (k : RKind) (lib : Lib T)
    (checks : ChkSpec) (ndebug : Bool) : Env T where
  ctl := b.ctl fe x64
  laws := b.laws fe hfe x64
  kind := k
  lib := lib
  checks := checks
  ndebug := ndebug

/-- Whatever the macros are, if the program compiles then it leaves the control word of the chosen back end as it finds it.
Missing from the full claim: the reserved Microsoft control words (`C40_msvc_reserved`), and `nth_root`
(`C06_nth_root_leaks`). -/
theorem C88_compiled_program_partial {α : Type} (fe : RMode → Int) (hfe : ∀ a b, fe a = fe b → a = b) (x64 : Bool)
    (m : Macros) (s : PP) (h : hwRounding m = some s) (k : RKind) (lib : Lib T) (checks : ChkSpec) (ndebug : Bool) (p : Prog T α) (hp : p.All (fun i => Call.Protected i) false) :
    ∃ b, s.specs = [b] ∧ ∀ (w : (b.ctl fe x64).W) (sched : ℕ → Bool), b.Usable fe x64 w →
      (p.run (libPolicies (b.ctl fe x64) k lib (checks.eval T ndebug)) ⟨w, sched⟩).2.cw = w := by
  obtain ⟨b, hb⟩ := C88_one m s h
  exact ⟨b, hb, fun w sched hw =>
    C06_program_partial (V := b.env fe hfe x64 k lib checks ndebug) p hp ⟨w, sched⟩ (Backend.usable_valid hfe hw)⟩

/-- Whatever the macros are on two machines, a program that compiles on both has the same outcome on both, from all control
words. The base type is taken to be the same on both. Missing from the full claim: the reserved Microsoft control words, and
calls that depend on the direction in force (not `Env.ModeFree`; `C07_int`). -/
theorem C88_portable_partial {α : Type} (fe fe' : RMode → Int) (hfe : ∀ a b, fe a = fe b → a = b)
    (hfe' : ∀ a b, fe' a = fe' b → a = b) (x64 x64' : Bool) (m m' : Macros) (s s' : PP) (h : hwRounding m = some s)
    (h' : hwRounding m' = some s') (k : RKind) (lib : Lib T) (hk : k = .exact → ModeFree T lib) (checks : ChkSpec)
    (ndebug : Bool) (p : Prog T α)
    (hp : ∀ V : Env T, V.kind = k → p.All (fun i => V.ModeFree i) false) :
    ∃ b b', s.specs = [b] ∧ s'.specs = [b'] ∧ ∀ (w : (b.ctl fe x64).W) (w' : (b'.ctl fe' x64').W) (o o' : ℕ → Bool),
      b.Usable fe x64 w → b'.Usable fe' x64' w' →
      (p.run (libPolicies (b.ctl fe x64) k lib (checks.eval T ndebug)) ⟨w, o⟩).1 =
        (p.run (libPolicies (b'.ctl fe' x64') k lib (checks.eval T ndebug)) ⟨w', o'⟩).1 := by
  obtain ⟨b, hb⟩ := C88_one m s h
  obtain ⟨b', hb'⟩ := C88_one m' s' h'
  refine ⟨b, b', hb, hb', fun w w' o o' hw hw' => ?_⟩
  obtain ⟨J, l⟩ := (b.env fe hfe x64 k lib checks ndebug).lvl hk
  obtain ⟨J', l'⟩ := (b'.env fe' hfe' x64' k lib checks ndebug).lvl hk
  have e := p.run_sim l (i := false) (fun h => by cases h) (hp _ rfl) ⟨w, o⟩ (Backend.usable_valid hfe hw)
  have e' := p.run_sim l' (i := false) (fun h => by cases h) (hp _ rfl) ⟨w', o'⟩ (Backend.usable_valid hfe' hw')
  exact e.1.trans e'.1.symm

/-- A product on PowerPC and in 32-bit code of GNU C. -/
example := C88_portable_partial (T := Fl Fmt.double) feGlibc feGlibc feGlibc_inj feGlibc_inj false false
  { ppc := true, gnuc := true } { i386 := true, gnuc := true } ⟨false, [.ppc]⟩ ⟨false, [.x86gcc]⟩ (by decide) (by decide) .opp
  (fun _ _ x => some x) (fun h => by cases h) .strict true (.call (.mulII (litI 1 2) (litI 3 4)) .ret)
  (fun _ _ => ⟨trivial, fun _ => trivial⟩)
end

/-- Whatever the macros are, if the program compiles then expressions return an enclosure of their values and restore the
control word. Missing from the full claim: what is missing from `C88_compiled_add_partial` and from
`C14_expression_partial`. -/
theorem C88_compiled_expression_partial {f : Fmt} (fe : RMode → Int) (hfe : ∀ a b, fe a = fe b → a = b) (x64 : Bool) (m : Macros)
    (s : PP) (h : hwRounding m = some s) (k : RKind) (hk : k ≠ .exact) (lib : Lib (Fl f)) (checks : ChkSpec) (ndebug : Bool)
    (K : PiConst (Fl f)) (ρ : ℕ → Itv (Fl f)) (e : Expr (Fl f))
    (hs : ∀ V : Env (Fl f), V.kind = k → V.lib = lib → e.Supported V K (InfBase (Fl f)))
    (hd : ∃ v r, (∀ i, v i ∈ γ (ρ i)) ∧ e.Value v r) :
    ∃ b, s.specs = [b] ∧ ∃ z N, (∀ v r, (∀ i, v i ∈ γ (ρ i)) → e.Value v r → r ∈ γ z) ∧ (e.nests = false → N = 0) ∧
      ∀ fuel ≥ N, ∀ (w : (b.ctl fe x64).W) (sched : ℕ → Bool), b.Usable fe x64 w →
        (e.eval K fuel (libPolicies (b.ctl fe x64) k lib (checks.eval _ ndebug)) ρ ⟨w, sched⟩).1 = .ok z ∧
        (e.eval K fuel (libPolicies (b.ctl fe x64) k lib (checks.eval _ ndebug)) ρ ⟨w, sched⟩).2.cw = w := by
  obtain ⟨b, hb⟩ := C88_one m s h
  obtain ⟨z, N, h1, h2, h3⟩ := C14_expression_partial (b.env fe hfe x64 k lib checks ndebug) (Env.fl_directed _ hk) K ρ e
    (hs _ rfl rfl) hd
  refine ⟨b, hb, z, N, h1, h2, fun fuel hf w sched hw => ?_⟩
  obtain ⟨_, a, c, rfl⟩ := h3 fuel hf ⟨w, sched⟩ (Backend.usable_valid hfe hw)
  exact ⟨a, c⟩

/-- `x * y + x` on SPARC, at `x = 1`, `y = 3`. -/
example := C88_compiled_expression_partial (f := Fmt.double) feGlibc feGlibc_inj false { sparc := true, gnuc := true }
  ⟨false, [.sparc]⟩ (by decide) .opp (by decide) (fun _ _ x => some x) .strict true (piDouble .near)
  (fun i => if i = 0 then litI 1 2 else litI 3 4) (.bin .add (.bin .mul (.var 0) (.var 1)) (.var 0))
  (fun _ _ _ => ⟨(by simp), ⟨(by simp), trivial, trivial⟩, trivial⟩)
  ⟨fun i => if i = 0 then 1 else 3, 4,
    fun i => by by_cases h : i = 0 <;> simp only [h, if_true, if_false] <;> exact in_lit,
    3, 1, ⟨1, 3, rfl, rfl, by change (3 : ℝ) = 1 * 3; norm_num⟩, rfl, by change (4 : ℝ) = 3 + 1; norm_num⟩

/-- Whatever the macros are, if the program compiles then sums of intervals over a floating-point format enclose, in every
direction that the control word holds at the start, and the word is restored. The back end is taken to govern the unit that
computes. Missing from the full claim: the reserved Microsoft control words, and x86 code that computes in the other unit
(`C88_unit_partial`, `C88_sse_encloses_violated`). -/
theorem C88_compiled_add_partial {f : Fmt} (fe : RMode → Int) (hfe : ∀ a b, fe a = fe b → a = b) (x64 : Bool) (m : Macros)
    (s : PP) (h : hwRounding m = some s) (k : RKind) (hk : k ≠ .exact) (lib : Lib (Fl f)) (checks : ChkSpec) (ndebug : Bool)
    {x y : Itv (Fl f)} (hx : (γ x).Nonempty) (hy : (γ y).Nonempty) :
    ∃ b, s.specs = [b] ∧ ∀ (w : (b.ctl fe x64).W) (sched : ℕ → Bool), b.Usable fe x64 w →
      ∃ z, (addII (libPolicies (b.ctl fe x64) k lib (checks.eval _ ndebug)) x y ⟨w, sched⟩).1 = .ok z ∧
        (addII (libPolicies (b.ctl fe x64) k lib (checks.eval _ ndebug)) x y ⟨w, sched⟩).2.cw = w ∧
        ∀ a ∈ γ x, ∀ c ∈ γ y, a + c ∈ γ z := by
  obtain ⟨b, hb⟩ := C88_one m s h
  exact ⟨b, hb, fun w sched hw => C01_add (V := b.env fe hfe x64 k lib checks ndebug) (Env.fl_directed _ hk) hx hy ⟨w, sched⟩
    (Backend.usable_valid hfe hw)⟩

/-- GNU C on PowerPC. -/
example := C88_compiled_add_partial (f := Fmt.double) feGlibc feGlibc_inj false { ppc := true, gnuc := true } ⟨false, [.ppc]⟩
  (by decide) .opp (by decide) (fun _ _ x => some x) .strict true (x := litI 1 2) (y := litI 3 4) ⟨1, in_lit⟩ ⟨3, in_lit⟩
/-- The Microsoft compiler, from the control word at the start of a program. -/
example : Backend.msvc.Usable feGlibc false (0x0009001f : BitVec 32) := by change _ &&& MCW_PC ≠ MCW_PC; decide
example := C88_compiled_program_partial (T := Fl Fmt.double) feGlibc feGlibc_inj false { sparc := true, gnuc := true }
  ⟨false, [.sparc]⟩ (by decide) .std (fun _ _ x => some x) .strict true (.call (.addII (litI 1 2) (litI 3 4)) .ret)
  ⟨trivial, fun _ => trivial⟩

/-- 32-bit code that computes in the x87: sums enclose whatever both registers hold, and both are restored. -/
theorem C88_x87_add {f : Fmt} (k : RKind) (hk : k ≠ .exact) (lib : Lib (Fl f)) (checks : ChkSpec) (ndebug : Bool)
    {x y : Itv (Fl f)} (hx : (γ x).Nonempty) (hy : (γ y).Nonempty) (w : X86Regs) (sched : ℕ → Bool) :
    ∃ z, (addII (libPolicies (fldcwX86 .x87) k lib (checks.eval _ ndebug)) x y ⟨w, sched⟩).1 = .ok z ∧
      (addII (libPolicies (fldcwX86 .x87) k lib (checks.eval _ ndebug)) x y ⟨w, sched⟩).2.cw = w ∧
      ∀ a ∈ γ x, ∀ c ∈ γ y, a + c ∈ γ z :=
  C01_add (V := ⟨fldcwX86 .x87, fldcwX87_laws, k, lib, checks, ndebug⟩) (Env.fl_directed _ hk) hx hy ⟨w, sched⟩ trivial

example := C88_x87_add (f := Fmt.extended) .opp (by decide) (fun _ _ x => some x) .strict true (x := litI 1 2) (y := litI 3 4)
  ⟨1, in_lit⟩ ⟨3, in_lit⟩ ⟨0x0b7f, 0x3f80⟩ (fun _ => true)

end BI
