import Verif.Proofs.Register
import Verif.Props.Arith
/-!
# C39: extended registers

`f` is the format of the base type, `g` that of the registers. The mathematical content is the first theorem; the
others are its consequences for the operations (all operands, including NaN, infinities and zeros with their signs) and
for the library: intervals over `Reg f g` - numbers of format `f` whose arithmetic goes through registers of format `g` -
are correctly rounded, so that all theorems about correctly rounded configurations apply to them.
-/

namespace BI
open Set

variable {f g : Fmt}

/-- Rounding any real number to the register format and then, in the same directed mode, to the base format is the same
as rounding it to the base format. -/
theorem C39_round (h : Nested f g) {r : RMode} (hr : r.Directed) (s : Bool) (x : ℝ) :
    (rnd g r s x).convert f r = rnd f r s x := rnd_twice h hr s x

theorem C39_add (h : Nested f g) {r : RMode} (hr : r.Directed) (a b : Fl f) :
    viaRegister2 g Fl.add r a b = a.add r b := add_via h hr a b

theorem C39_sub (h : Nested f g) {r : RMode} (hr : r.Directed) (a b : Fl f) :
    viaRegister2 g Fl.sub r a b = a.sub r b := sub_via h hr a b

theorem C39_mul (h : Nested f g) {r : RMode} (hr : r.Directed) (a b : Fl f) :
    viaRegister2 g Fl.mul r a b = a.mul r b := mul_via h hr a b

theorem C39_div (h : Nested f g) {r : RMode} (hr : r.Directed) (a b : Fl f) :
    viaRegister2 g Fl.div r a b = a.div r b := div_via h hr a b

theorem C39_sqrt (h : Nested f g) {r : RMode} (hr : r.Directed) (a : Fl f) :
    viaRegister1 g Fl.sqrt r a = a.sqrt r := sqrt_via h hr a

theorem C39_rint (h : Nested f g) {r : RMode} (hr : r.Directed) (a : Fl f) :
    viaRegister1 g Fl.rint r a = a.rint r := rint_via h hr a

/-- The formats of the x87: single and double in extended registers. -/
theorem C39_formats : Nested Fmt.single Fmt.double ∧ Nested Fmt.single Fmt.extended ∧ Nested Fmt.double Fmt.extended :=
  ⟨nested_of (by decide) (by decide) (by decide), nested_of (by decide) (by decide) (by decide),
    nested_of (by decide) (by decide) (by decide)⟩

/-- In rounding to nearest it is not harmless: `1 + (2^-53 + 2^-65)`. -/
theorem C39_near_differs :
    let a : Fl Fmt.double := Fl.ofInt .near 1
    let b : Fl Fmt.double := rnd Fmt.double .near false (4097 / 36893488147419103232 : ℚ)
    viaRegister2 Fmt.extended Fl.add .near a b ≠ a.add .near b := by decide +kernel

/-! ## Consequences for intervals -/

instance : NumLaws (Reg f g) where
  lt_iff := NumLaws.lt_iff (T := Fl f)
  le_iff := NumLaws.le_iff (T := Fl f)
  eq_iff := NumLaws.eq_iff (T := Fl f)
  lit := NumLaws.lit (T := Fl f)
  neg := NumLaws.neg (T := Fl f)
  nan := NumLaws.nan (T := Fl f)
  noNan := NumLaws.noNan (T := Fl f)
  inf := NumLaws.inf (T := Fl f)

theorem reg_approx {op op' : RMode → Option (Fl f)} {e : EReal} (h : ∀ r, r.Directed → op' r = op r)
    (hs : ∀ r, ∃ c z, op' r = some c ∧ val c = some z)
    (hf : Approx (Fl f) (IsRoundDown (Fl f)) (IsRoundUp (Fl f)) op e) :
    Approx (Fl f) (IsRoundDown (Fl f)) (IsRoundUp (Fl f)) op' e := by
  intro r
  by_cases hr : r.Directed
  · rw [h r hr]; exact hf r
  · obtain ⟨c, z, h1, h2⟩ := hs r
    exact ⟨c, z, h1, h2, fun h => absurd (.inl h) hr, fun h => absurd (.inr h) hr⟩

theorem conv_exists (h : Nested f g) (r : RMode) {a : Fl f} {x : EReal} (ha : val a = some x) :
    val (a.convert g r) = some x := by
  cases a with
  | nan => cases ha
  | inf s => cases s <;> exact ha
  | zero s => exact ha
  | nz q hq => rw [convert_nz h]; exact ha

theorem via2_val (h : Nested f g) {op : RMode → Fl g → Fl g → Fl g} (r : RMode) {a b : Fl f} {x y e : EReal}
    (ha : val a = some x) (hb : val b = some y)
    (hop : ∀ a b : Fl g, val a = some x → val b = some y → Rounds g r e (op r a b)) :
    ∃ c z, some (viaRegister2 g op r a b) = some c ∧ val c = some z := by
  obtain ⟨z, hz, _⟩ := hop _ _ (conv_exists h r ha) (conv_exists h r hb)
  obtain ⟨w, hw, _⟩ := convert_rounds (g := f) r hz
  exact ⟨_, w, rfl, hw⟩

/-- Arithmetic through registers is correctly rounded. -/
theorem C39_tight (h : Nested f g) : TightBase (Reg f g) where
  neg a := by intro h; cases h
  add a b x y ha hb ok := reg_approx (fun r hr => congrArg some (add_via h hr a b))
    (fun r => via2_val h r ha hb fun _ _ ha hb => add_rounds r ha hb ok) (fl_tight.add a b x y ha hb ok)
  sub a b x y ha hb ok := reg_approx (fun r hr => congrArg some (sub_via h hr a b))
    (fun r => via2_val h r ha hb fun _ _ ha hb => sub_rounds r ha hb ok) (fl_tight.sub a b x y ha hb ok)
  mul a b x y ha hb ok := reg_approx (fun r hr => congrArg some (mul_via h hr a b))
    (fun r => via2_val h r ha hb fun _ _ ha hb => mul_rounds r ha hb ok) (fl_tight.mul a b x y ha hb ok)
  div a b x y ha hb ok := reg_approx (fun r hr => congrArg some (div_via h hr a b))
    (fun r => via2_val h r ha hb fun _ _ ha hb => div_rounds r ha hb ok) (fl_tight.div a b x y ha hb ok)

/-- Hence every configuration that switches rounding directions is. -/
theorem C39_env (h : Nested f g) (V : Env (Reg f g)) (hk : V.kind ≠ .exact) : V.Tight := .inl ⟨hk, C39_tight h⟩

/-! ## The hypotheses can be met -/

/-- `interval<double>` on the x87, with extended registers. -/
noncomputable def x87 : Env (Reg Fmt.double Fmt.extended) where
  ctl := x86gcc
  laws := x86gcc_laws
  kind := .opp
  lib := fun _ _ x => some x
  checks := .strict
  ndebug := true

example : x87.Returns (divII x87.P (litI 1 1) (litI 3 3)) fun z => (1 / 3 : ℝ) ∈ γ z :=
  (C04_div_partial x87 (C39_env C39_formats.2.2 x87 (by decide)).directed ne_lit ⟨3, in_lit, by norm_num⟩
    (.inl ⟨rfl, rfl⟩)).mono fun z hz => by
      have := hz 1 in_lit 3 in_lit (by norm_num)
      exact this

end BI
