import Verif.Model.ToInt
import Verif.Model.Arith2
import Verif.Proofs.Conv
import Verif.Proofs.InstArith2
import Batteries.Lean.Except
/-! # C55: rounding to an integer through a narrower format -/

namespace BI
variable {f g : Fmt}

/-- Every number of `g` is a number of `f`. -/
def Fmt.Wider (f g : Fmt) : Prop := g.p ≤ f.p ∧ f.emin ≤ g.emin ∧ g.emax ≤ f.emax

theorem Fmt.Wider.rep (h : Fmt.Wider f g) {q : ℚ} (hq : Rep g q) : Rep f q := by
  obtain ⟨m, e, h1, h2, h3, h4⟩ := hq
  exact ⟨m, e, h1.trans_le (pow_le_pow_right₀ (by norm_num) h.1), h.2.1.trans h2, h3.trans h.2.2, h4⟩

/-- Converting to a wider format does not change the value. -/
theorem Fmt.Wider.back (h : Fmt.Wider f g) (r : RMode) {a : Fl g} {e : EReal} (ha : val a = some e) :
    val (a.convert f r) = some e := by
  obtain ⟨z, hz, hs⟩ := convert_rounds (g := f) r ha
  have he : Representable (Fl f) e := by
    rw [representable_iff]
    rcases (representable_iff e).1 ⟨a, ha⟩ with h1 | h1 | ⟨q, hq, h1⟩
    · exact .inl h1
    · exact .inr (.inl h1)
    · exact .inr (.inr ⟨q, Wider.rep h hq, h1⟩)
  rw [hz, le_antisymm (hs.up e he le_rfl) (hs.lo e he le_rfl)]

private theorem rint_inf (r : RMode) {a : Fl g} {e : EReal} (ha : val a = some e) (he : e = ⊥ ∨ e = ⊤) :
    val (a.rint r) = some e := by
  cases a with
  | nan => cases ha
  | inf s => exact ha
  | zero s => cases ha; simp at he
  | nz q h => cases ha; simp at he

/-- `int_down` of a finite number: the largest integer of the narrow format that is not above it (`-∞` if there is
none). -/
theorem C55_down (h : Fmt.Wider f g) {x : Fl f} {q : ℝ} (hx : val x = some (q : EReal)) :
    ∃ z, val (toIntVia g .down x) = some z ∧ z ≤ q ∧
      (z = ⊥ ∨ ∃ n : ℤ, z = ((n : ℝ) : EReal) ∧ Representable (Fl g) ((n : ℝ) : EReal)) ∧
      ∀ n : ℤ, Representable (Fl g) ((n : ℝ) : EReal) → (n : ℝ) ≤ q → ((n : ℝ) : EReal) ≤ z := by
  obtain ⟨d, hd, hr, hle, hmax⟩ := (convert_rounds (g := g) .down hx).isDown
  induction d using EReal.rec with
  | bot =>
    exact ⟨⊥, h.back _ (rint_inf _ hd (.inl rfl)), bot_le, .inl rfl, fun n hn hq => hmax _ hn (by exact_mod_cast hq)⟩
  | top => exact absurd hle (by simp)
  | coe d =>
    have hi := fl_rint .down _ d hd
    refine ⟨_, h.back _ hi, ?_, .inr ⟨⌊d⌋, rfl, ⟨_, hi⟩⟩, fun n hn hq => ?_⟩
    · exact le_trans (by exact_mod_cast Int.floor_le d) hle
    · have h1 : (n : ℝ) ≤ d := by exact_mod_cast hmax _ hn (by exact_mod_cast hq)
      have h2 : n ≤ ⌊d⌋ := Int.le_floor.2 h1
      change ((n : ℝ) : EReal) ≤ ((⌊d⌋ : ℝ) : EReal)
      exact_mod_cast h2

/-- `int_up`: the smallest integer of the narrow format that is not below it (`+∞` if there is none). -/
theorem C55_up (h : Fmt.Wider f g) {x : Fl f} {q : ℝ} (hx : val x = some (q : EReal)) :
    ∃ z, val (toIntVia g .up x) = some z ∧ q ≤ z ∧
      (z = ⊤ ∨ ∃ n : ℤ, z = ((n : ℝ) : EReal) ∧ Representable (Fl g) ((n : ℝ) : EReal)) ∧
      ∀ n : ℤ, Representable (Fl g) ((n : ℝ) : EReal) → q ≤ (n : ℝ) → z ≤ ((n : ℝ) : EReal) := by
  obtain ⟨d, hd, hr, hle, hmax⟩ := (convert_rounds (g := g) .up hx).isUp
  induction d using EReal.rec with
  | bot => exact absurd hle (by simp)
  | top =>
    exact ⟨⊤, h.back _ (rint_inf _ hd (.inr rfl)), le_top, .inl rfl, fun n hn hq => hmax _ hn (by exact_mod_cast hq)⟩
  | coe d =>
    have hi := fl_rint .up _ d hd
    refine ⟨_, h.back _ hi, ?_, .inr ⟨⌈d⌉, rfl, ⟨_, hi⟩⟩, fun n hn hq => ?_⟩
    · exact le_trans hle (by exact_mod_cast Int.le_ceil d)
    · have h1 : d ≤ (n : ℝ) := by exact_mod_cast hmax _ hn (by exact_mod_cast hq)
      have h2 : ⌈d⌉ ≤ n := Int.ceil_le.2 h1
      change ((⌈d⌉ : ℝ) : EReal) ≤ ((n : ℝ) : EReal)
      exact_mod_cast h2

private theorem rep_z {n : ℤ} (h : |n| < 2 ^ g.p) : Representable (Fl g) ((n : ℝ) : EReal) :=
  (representable_iff _).2 (.inr (.inr ⟨n, rep_int h, by push_cast; rfl⟩))

/-- As long as the integer has no more digits than the narrow format, the result is the floor and the ceiling. -/
theorem C55_exact_partial (h : Fmt.Wider f g) {x : Fl f} {q : ℝ} (hx : val x = some (q : EReal)) :
    (|⌊q⌋| < 2 ^ g.p → val (toIntVia g .down x) = some ((⌊q⌋ : ℝ) : EReal)) ∧
    (|⌈q⌉| < 2 ^ g.p → val (toIntVia g .up x) = some ((⌈q⌉ : ℝ) : EReal)) := by
  constructor <;> intro hb
  · obtain ⟨z, hz, h1, h2, h3⟩ := C55_down h hx
    have h4 := h3 _ (rep_z hb) (Int.floor_le q)
    rcases h2 with rfl | ⟨n, rfl, -⟩
    · exact absurd h4 (by simp)
    · have h5 : n ≤ ⌊q⌋ := Int.le_floor.2 (by exact_mod_cast h1)
      have h6 : ⌊q⌋ ≤ n := by exact_mod_cast h4
      rw [hz, le_antisymm h5 h6]
  · obtain ⟨z, hz, h1, h2, h3⟩ := C55_up h hx
    have h4 := h3 _ (rep_z hb) (Int.le_ceil q)
    rcases h2 with rfl | ⟨n, rfl, -⟩
    · exact absurd h4 (by simp)
    · have h5 : ⌈q⌉ ≤ n := Int.ceil_le.2 (by exact_mod_cast h1)
      have h6 : n ≤ ⌈q⌉ := by exact_mod_cast h4
      rw [hz, le_antisymm h5 h6]

private theorem convert_neg (x : Fl f) : (x.neg.convert g .up).neg = x.convert g .down := by
  cases x with
  | nan => rfl
  | inf s => cases s <;> rfl
  | zero s => cases s <;> rfl
  | nz q h =>
    change (rnd g .up (decide (-q < 0)) (-q)).neg = rnd g .down (decide (q < 0)) q
    rw [rnd_neg_rat]
    have h0 := h.1
    rw [show (decide (-q < 0)) = decide (0 < q) by simp, dec_pos h0, Bool.not_not]

/-- The formula of the "opposite" arithmetic, `-to_int(-x)` in upward direction, gives the same number. -/
theorem C55_opp (x : Fl f) : (toIntVia g .up x.neg).neg = toIntVia g .down x := by
  have e (y : Fl f) : y = y.neg.neg := (neg_neg' y).symm
  unfold toIntVia
  rw [← convert_neg (x := (x.convert g .down).rint .down), ← rint_opp, ← convert_neg (x := x)]
  simp only [neg_neg']

/-! ## Violation: the result is not the floor -/

/-- `2^53 + 1` as a `long double`. -/
def ldBig : Fl Fmt.extended := Fl.ofInt .near (2 ^ 53 + 1)

/-- `int_down(2^53 + 1)` is `2^53`, although the argument is an integer. -/
theorem C55_not_floor :
    toIntVia Fmt.double .down ldBig = Fl.ofInt .near (2 ^ 53) ∧ ldBig.rint .down = ldBig ∧
    toIntVia Fmt.double .up ldBig = Fl.ofInt .near (2 ^ 53 + 2) := by
  decide +kernel

/-- Consequence: `fmod` of an interval of `long double` by 1 is not below 1, for both arithmetics. -/
theorem C55_fmod :
    ∀ k ∈ [RKind.std, .opp], (fmodTI (ldPolicies k) ⟨ldBig⟩ ⟨⟨Fl.ofInt .near 1⟩, ⟨Fl.ofInt .near 1⟩⟩
      ⟨⟨.near, ()⟩, fun _ => true⟩).1 = .ok ⟨⟨Fl.ofInt .near 1⟩, ⟨Fl.ofInt .near 1⟩⟩ := by
  decide +kernel

/-! ## The hypotheses can be met -/

theorem ext_wider : Fmt.extended.Wider Fmt.double := by unfold Fmt.Wider; decide
example := C55_down ext_wider (x := Fl.ofInt .near 5) (q := 5) (by
  change val (rnd _ _ _ ((5 : ℤ) : ℚ)) = _; rw [rnd_exact _ _ (rep_small (by decide))]; norm_num)
/-- Going through `double` is harmless for `-7/2`. -/
example : toIntVia Fmt.double .down (Fl.nz (-7/2) (by refine ⟨by norm_num, -7, -1, ?_, ?_, ?_, ?_⟩ <;> norm_num [Fmt.extended]) : Fl Fmt.extended)
    = Fl.ofInt .near (-4) := by decide +kernel

end BI
