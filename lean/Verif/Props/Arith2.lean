import Verif.Proofs.InstArith2
import Verif.Props.Sharp
import Verif.Proofs.EnclUtil
import Verif.Proofs.PowMono
/-!
# C12, C13 (unary functions), C15–C18, C47: arith2.hpp

See `Props/Arith.lean` for `V.Directed` and `V.Returns`, `Props/Sharp.lean` for `V.Tight`. `V.Signed` lies between the
two: the base operations round outwards, and never across zero. `V.SqrtOk D U` says the same of the square root of the
base type, with the approximations `D` and `U`; `V.IntOk` that rounding a finite number to an integer is exact.
-/

set_option linter.unusedSectionVars false

namespace BI
open Set

variable {T : Type} [Num T] [Val T] [NumLaws T] (V : Env T) {x y x' y' : Itv T} {t : T} {r : ℝ}

/-! ## C15 -/

theorem C15_square (hV : V.Directed) (hx : (γ x).Nonempty) :
    V.Returns (squareI V.P x) fun z => ∀ a ∈ γ x, a ^ 2 ∈ γ z := by
  obtain ⟨_, _, ix⟩ := has_of_nonempty hx
  have hA := hV.dir du_weak
  refine V.run hV (fun _ h => squareI_sim h x) ((squareI_post hA.op V.chk ix).mono fun z hz => ?_)
  exact fun a ha => hz.encl hA.D_le hA.U_ge ⟨a, ha, rfl⟩

theorem nonneg_upper {a b : EReal} (ix : Has x a b) (h : ∃ r ∈ γ x, 0 ≤ r) : 0 ≤ b := by
  obtain ⟨r, hr, h0⟩ := h
  exact le_trans (by exact_mod_cast h0) (ix.ub hr)

theorem neg_upper {a b : EReal} (ix : Has x a b) (h : ∀ r ∈ γ x, r < 0) : b < 0 := by
  by_contra hb
  push Not at hb
  obtain ⟨r, hr⟩ := ix.nonempty
  have h1 : (0 : ℝ) ∈ γ x := by
    rw [mem_zero_iff ix]
    exact ⟨(ix.lb hr).trans (by exact_mod_cast (h r hr).le), hb⟩
  exact absurd (h 0 h1) (lt_irrefl _)

theorem C15_sqrt (hV : V.Directed) (hS : V.SqrtOk LeB GeB) (hx : ∃ r ∈ γ x, 0 ≤ r) :
    V.Returns (sqrtI V.P x) fun z => ∀ a ∈ γ x, 0 ≤ a → Real.sqrt a ∈ γ z := by
  obtain ⟨r, hr, h0⟩ := hx
  obtain ⟨_, _, ix⟩ := has_of_mem hr
  have hA := hV.dir du_weak
  refine V.run hV (fun _ h => sqrtI_sim h x)
    ((sqrtI_post hA.op (hS.laws du_weak) V.chk ix (nonneg_upper ix ⟨r, hr, h0⟩)).mono fun z hz => ?_)
  exact fun a ha h => hz.encl hA.D_le hA.U_ge ⟨a, ⟨ha, h⟩, rfl⟩

/-- The square root of a wholly negative interval is empty, or throws. -/
theorem C15_sqrt_neg (hV : V.Directed) (hx : (γ x).Nonempty) (hn : ∀ r ∈ γ x, r < 0) : V.YieldsEmpty (sqrtI V.P x) := by
  obtain ⟨_, _, ix⟩ := has_of_nonempty hx
  exact V.runEmpty hV (fun _ h => sqrtI_sim h x) (sqrtI_neg V.chk ix (neg_upper ix hn))

/-- Missing from the full claim: intervals that contain zero and other numbers if the base type has no infinities; the program
stops (`C57_inverse`), or with `NDEBUG` the claim is false (`C15_violated`). -/
theorem C15_inverse_partial (hV : V.Directed) (hx : ∃ r ∈ γ x, r ≠ 0) (hi : InfBase T ∨ 0 ∉ γ x) :
    V.Returns (multInv V.P x) fun z => ∀ a ∈ γ x, a ≠ 0 → a⁻¹ ∈ γ z := by
  obtain ⟨r, hr, h0⟩ := hx
  obtain ⟨_, _, ix⟩ := has_of_mem hr
  have hA := hV.dir du_weak
  have hD := hV.div du_weak
  have h1 : val (Num.lit 1 : T) = some ((1 : ℝ) : EReal) := by rw [val_one]; rfl
  refine V.run hV (fun _ h => multInv_sim h x) (Q := fun z => ∀ a ∈ γ x, a ≠ 0 → a⁻¹ ∈ γ z) ?_
  rw [multInv_eq V.chk ix]
  rcases hi with hi | hi
  · have hne := fun h => h0 ((zero_bounds ix).1 h hr)
    exact (divTI_post hA.op hD (V.infLaws hi) V.chk h1 ix hne).mono fun z hz b hb h =>
      hz.encl hA.D_le hA.U_ge ⟨1, rfl, b, hb, h, (one_div b).symm⟩
  · exact (divTI_nz_post hD V.chk h1 ix hi).mono fun z hz b hb h =>
      hz.encl hA.D_le hA.U_ge ⟨1, rfl, b, hb, h, (one_div b).symm⟩

theorem C15_inverse_zero (hV : V.Directed) (hx : γ x = {0}) : V.YieldsEmpty (multInv V.P x) := by
  obtain ⟨_, _, ix⟩ := has_of_nonempty (x := x) (by rw [hx]; exact ⟨0, rfl⟩)
  have h1 : val (Num.lit 1 : T) = some ((1 : ℝ) : EReal) := by rw [val_one]; rfl
  exact V.runEmpty hV (fun _ h => multInv_sim h x)
    ((multInv_eq V.chk ix).trans (divTI_zero V.chk h1 ix ((zero_bounds ix).2 hx.subset)))

theorem C15_abs (hn : ∀ a : T, Num.neg a ≠ none) (hx : (γ x).Nonempty) :
    ∃ z, absI V.C x = .ok z ∧ ∀ a ∈ γ x, |a| ∈ γ z := by
  obtain ⟨a, b, ix⟩ := has_of_nonempty hx
  obtain ⟨z, l, u, hz, iz, e⟩ := absI_has hn V.chk ix
  exact ⟨z, hz, fun r hr => by rw [iz.gamma, e, ← ix.gamma]; exact ⟨r, hr, rfl⟩⟩

/-! ## C12, unary functions -/

theorem C12_square (hV : V.Tight) (hx : (γ x).Nonempty) :
    V.Returns (squareI V.P x) fun z => SmallestEnclosure z {q | ∃ a, a ∈ γ x ∧ a ^ 2 = q} := by
  obtain ⟨_, _, ix⟩ := has_of_nonempty hx
  exact V.sharp hV (fun _ h => squareI_sim h x) (squareI_post (hV.dir du_tight).op V.chk ix) (hx.image _)

theorem C12_sqrt (hV : V.Tight) (hS : V.SqrtOk (IsRoundDown T) (IsRoundUp T)) (hx : ∃ r ∈ γ x, 0 ≤ r) :
    V.Returns (sqrtI V.P x) fun z => SmallestEnclosure z {q | ∃ a, (a ∈ γ x ∧ 0 ≤ a) ∧ Real.sqrt a = q} := by
  obtain ⟨r, hr, h0⟩ := hx
  obtain ⟨_, _, ix⟩ := has_of_mem hr
  exact V.sharp hV (fun _ h => sqrtI_sim h x)
    (sqrtI_post (hV.dir du_tight).op (hS.laws du_tight) V.chk ix (nonneg_upper ix ⟨r, hr, h0⟩)) ⟨_, r, ⟨hr, h0⟩, rfl⟩

/-- Base types with infinities; `C12_inverse_nz` for the others. -/
theorem C12_inverse (hV : V.Tight) (hi : InfBase T) (hx : ∃ r ∈ γ x, r ≠ 0) :
    V.Returns (multInv V.P x) fun z =>
      SmallestEnclosure z {q | ∃ a ∈ ({1} : Set ℝ), ∃ b ∈ γ x, b ≠ 0 ∧ q = a / b} := by
  obtain ⟨r, hr, h0⟩ := hx
  obtain ⟨_, _, ix⟩ := has_of_mem hr
  have h1 : val (Num.lit 1 : T) = some ((1 : ℝ) : EReal) := by rw [val_one]; rfl
  refine V.sharp hV (fun _ h => multInv_sim h x) ?_ (quot_nonempty (singleton_nonempty 1) ⟨r, hr, h0⟩)
  rw [multInv_eq V.chk ix]
  exact divTI_post (hV.dir du_tight).op (hV.div du_tight) (V.infLaws hi) V.chk h1 ix
    fun h => h0 ((zero_bounds ix).1 h hr)

theorem C12_inverse_nz (hV : V.Tight) (hx : (γ x).Nonempty) (h0 : 0 ∉ γ x) :
    V.Returns (multInv V.P x) fun z =>
      SmallestEnclosure z {q | ∃ a ∈ ({1} : Set ℝ), ∃ b ∈ γ x, b ≠ 0 ∧ q = a / b} := by
  obtain ⟨r, hr⟩ := hx
  obtain ⟨_, _, ix⟩ := has_of_mem hr
  have h1 : val (Num.lit 1 : T) = some ((1 : ℝ) : EReal) := by rw [val_one]; rfl
  refine V.sharp hV (fun _ h => multInv_sim h x) ?_
    (quot_nonempty (singleton_nonempty 1) ⟨r, hr, fun h => h0 (h ▸ hr)⟩)
  rw [multInv_eq V.chk ix]
  exact divTI_nz_post (hV.div du_tight) V.chk h1 ix h0

theorem subset_smallest {z : Itv T} {S : Set ℝ} (h : γ z = S) (hS : S.Nonempty) : SmallestEnclosure z S := by
  refine ⟨h ▸ subset_rfl, fun z' hz' => ?_⟩
  obtain ⟨l, u, iz⟩ := has_of_nonempty (x := z) (h ▸ hS)
  obtain ⟨l', u', iz'⟩ := has_of_nonempty (hS.mono hz')
  obtain ⟨h1, h2⟩ := iz.subset iz' (h ▸ hz')
  refine ⟨h ▸ hz', fun p q p' q' k1 k2 k3 k4 => ?_⟩
  rw [iz.lo] at k1; rw [iz.up] at k2; rw [iz'.lo] at k3; rw [iz'.up] at k4
  cases k1; cases k2; cases k3; cases k4
  exact ⟨h1, h2⟩

theorem C12_abs (hn : ∀ a : T, Num.neg a ≠ none) (hx : (γ x).Nonempty) :
    ∃ z, absI V.C x = .ok z ∧ SmallestEnclosure z {q | ∃ a, a ∈ γ x ∧ |a| = q} := by
  obtain ⟨a, b, ix⟩ := has_of_nonempty hx
  obtain ⟨z, l, u, hz, iz, e⟩ := absI_has hn V.chk ix
  exact ⟨z, hz, subset_smallest (by rw [iz.gamma, e, ← ix.gamma]; rfl) (hx.image _)⟩

/-! ## C13, unary functions -/

theorem C13_square (hV : V.Tight) (hx : (γ x).Nonempty) (hxx : γ x ⊆ γ x') :
    V.Returns (squareI V.P x) fun z => V.Returns (squareI V.P x') fun z' => γ z ⊆ γ z' :=
  (C12_square V hV hx).mono fun _ hz => (C12_square V hV (hx.mono hxx)).mono fun _ hz' =>
    hz.mono hz' (image_mono hxx)

theorem C13_sqrt (hV : V.Tight) (hS : V.SqrtOk (IsRoundDown T) (IsRoundUp T)) (hx : ∃ r ∈ γ x, 0 ≤ r)
    (hxx : γ x ⊆ γ x') : V.Returns (sqrtI V.P x) fun z => V.Returns (sqrtI V.P x') fun z' => γ z ⊆ γ z' :=
  (C12_sqrt V hV hS hx).mono fun _ hz =>
    (C12_sqrt V hV hS (by obtain ⟨r, h1, h2⟩ := hx; exact ⟨r, hxx h1, h2⟩)).mono fun _ hz' =>
      hz.mono hz' fun _ ⟨a, ⟨h1, h2⟩, h3⟩ => ⟨a, ⟨hxx h1, h2⟩, h3⟩

theorem C13_inverse (hV : V.Tight) (hi : InfBase T) (hx : ∃ r ∈ γ x, r ≠ 0) (hxx : γ x ⊆ γ x') :
    V.Returns (multInv V.P x) fun z => V.Returns (multInv V.P x') fun z' => γ z ⊆ γ z' :=
  (C12_inverse V hV hi hx).mono fun _ hz =>
    (C12_inverse V hV hi (by obtain ⟨r, h1, h2⟩ := hx; exact ⟨r, hxx h1, h2⟩)).mono fun _ hz' =>
      hz.mono hz' (quot_mono subset_rfl hxx)

theorem C13_inverse_nz (hV : V.Tight) (hx : (γ x).Nonempty) (hxx : γ x ⊆ γ x') (h0 : 0 ∉ γ x') :
    V.Returns (multInv V.P x) fun z => V.Returns (multInv V.P x') fun z' => γ z ⊆ γ z' :=
  (C12_inverse_nz V hV hx fun h => h0 (hxx h)).mono fun _ hz =>
    (C12_inverse_nz V hV (hx.mono hxx) h0).mono fun _ hz' => hz.mono hz' (quot_mono subset_rfl hxx)

theorem C13_abs (hn : ∀ a : T, Num.neg a ≠ none) (hx : (γ x).Nonempty) (hxx : γ x ⊆ γ x') :
    ∃ z z', absI V.C x = .ok z ∧ absI V.C x' = .ok z' ∧ γ z ⊆ γ z' := by
  obtain ⟨z, h1, h2⟩ := C12_abs V hn hx
  obtain ⟨z', h1', h2'⟩ := C12_abs V hn (hx.mono hxx)
  exact ⟨z, z', h1, h1', h2.mono h2' (image_mono hxx)⟩

/-- `pow`; the sub-interval must have a point other than zero unless the exponent is positive. -/
theorem C13_pow (hV : V.Tight) {k : ℤ} (hk : k ≠ -2147483648) (hx : (γ x).Nonempty) (h0 : k ≤ 0 → ∃ r ∈ γ x, r ≠ 0)
    (hi : k < 0 → InfBase T) (hxx : γ x ⊆ γ x') :
    V.Returns (powI V.P x k) fun z => V.Returns (powI V.P x' k) fun z' => γ z ⊆ γ z' := by
  obtain ⟨a, b, ix⟩ := has_of_nonempty hx
  obtain ⟨a', b', ix'⟩ := has_of_nonempty (hx.mono hxx)
  have hA := hV.signed.dir du_signed
  refine V.run hV (fun _ h => powI_sim h x k) ((powI_res (hV.dir du_tight) hA (hV.div du_tight) V.chk ix hk
    (fun h => V.infLaws (hi h)) h0).mono fun z hz => ?_)
  refine V.run hV (fun _ h => powI_sim h x' k) ((powI_res (hV.dir du_tight) hA (hV.div du_tight) V.chk ix' hk
    (fun h => V.infLaws (hi h)) fun h => ?_).mono fun z' hz' => hz.mono hz' ix ix' hxx)
  obtain ⟨r, h1, h2⟩ := h0 h
  exact ⟨r, hxx h1, h2⟩

/-! ## C16 -/

theorem C16_square (hV : V.Tight) (hx : (γ x).Nonempty) :
    V.Returns (squareI V.P x) fun z =>
      (∃ l, val z.lower = some l ∧ 0 ≤ l) ∧ V.Returns (mulII V.P x x) fun z' => γ z ⊆ γ z' := by
  obtain ⟨_, _, ix⟩ := has_of_nonempty hx
  refine V.run hV (fun _ h => squareI_sim h x) ((squareI_post (hV.dir du_tight).op V.chk ix).mono fun z hz => ⟨?_, ?_⟩)
  · obtain ⟨l, u, e₁, e₂, h1, -, h3, -, h5, -⟩ := hz
    refine ⟨l, h1, h5.2.2 0 ⟨_, val_zero⟩ (h3.2 ?_)⟩
    rintro _ ⟨_, ⟨r, -, rfl⟩, rfl⟩
    exact_mod_cast sq_nonneg r
  · have h := hz.smallest (hx.image _)
    exact (C12_mul V hV hx hx).mono fun z' hz' => h.mono hz' (by
      rintro _ ⟨a, ha, rfl⟩; exact ⟨a, ha, a, ha, (sq a).symm⟩)

/-! ## C17 -/

/-- All quotients are covered, and the second part is needed only if the flag is set. Missing from the full claim: divisors that
contain zero and other numbers if the base type has no infinities; with `NDEBUG` the claim is then false (`C17_violated`). -/
theorem C17_cover_partial (hV : V.Directed) (hi : InfBase T ∨ 0 ∉ γ y) (hx : (γ x).Nonempty) (hy : ∃ b ∈ γ y, b ≠ 0) :
    V.Returns (divisionPart1 V.P x y) fun p =>
      (p.2 = false → ∀ a ∈ γ x, ∀ b ∈ γ y, b ≠ 0 → a / b ∈ γ p.1) ∧
      (p.2 = true → V.Returns (divisionPart2 V.P x y true) fun z =>
        ∀ a ∈ γ x, ∀ b ∈ γ y, b ≠ 0 → a / b ∈ γ p.1 ∪ γ z) := by
  obtain ⟨a, b, ix⟩ := has_of_nonempty hx
  obtain ⟨b₀, hb₀, h₀⟩ := hy
  obtain ⟨c, d, iy⟩ := has_of_mem hb₀
  have hA := hV.dir du_weak
  have hD := hV.div du_weak
  refine V.run hV (fun _ h => divisionPart1_sim h x y) ?_
  by_cases h : c < 0 ∧ 0 < d ∧ ¬ (a = 0 ∧ b = 0) ∧ (b < 0 ∨ 0 ≤ a)
  · obtain ⟨h1, h2, h3, h4⟩ := h
    rcases hi with hi | hi
    · obtain ⟨k1, k2⟩ := divParts_post hA.op hD (V.infLaws hi) V.chk ix iy h1 h2 h3 h4
      refine k1.mono fun p ⟨hp, hp'⟩ => ⟨fun h => (by rw [hp] at h; cases h), fun _ => ?_⟩
      refine V.run hV (fun _ h => divisionPart2_sim h x y true) (k2.mono fun z hz r hr s hs h0 => ?_)
      rcases le_total (r / s) 0 with h | h
      · exact .inl (hp'.encl hA.D_le hA.U_ge ⟨⟨r, hr, s, hs, h0, rfl⟩, h⟩)
      · exact .inr (hz.encl hA.D_le hA.U_ge ⟨⟨r, hr, s, hs, h0, rfl⟩, h⟩)
    · exact absurd ((mem_zero_iff iy).2 ⟨h1.le, h2.le⟩) hi
  · have e := divPart1_eq (B := V.B) V.chk ix iy h
    have key : Post True (divII (purePolicies V.B V.C) x y) fun z => ∀ a ∈ γ x, ∀ b ∈ γ y, b ≠ 0 → a / b ∈ γ z := by
      rcases hi with hi | hi
      · have hne := fun h => h₀ ((zero_bounds iy).1 h hb₀)
        exact (divII_encl hA hD (V.infLaws hi) V.chk ix iy hne).mono fun z hz a ha b hb h => hz ⟨a, ha, b, hb, h, rfl⟩
      · exact (divII_nz_post hD V.chk ix iy hi).mono fun z hz a ha b hb h =>
          hz.encl hA.D_le hA.U_ge ⟨a, ha, b, hb, h, rfl⟩
    rw [e]
    exact key.bind fun z hz => ⟨fun _ => hz, fun h => by cases h⟩

/-- For correctly rounded base types, if zero is inside the divisor and not inside the dividend, the parts are the
smallest enclosures of the non-positive and of the non-negative quotients. -/
theorem C17_sharp (hV : V.Tight) (hi : InfBase T) (hx : (∃ r ∈ γ x, r ≠ 0)) (hx' : (∀ r ∈ γ x, r < 0) ∨ ∀ r ∈ γ x, 0 ≤ r)
    (hn : ∃ b ∈ γ y, b < 0) (hp : ∃ b ∈ γ y, 0 < b) :
    V.Returns (divisionPart1 V.P x y) fun p => p.2 = true ∧
      SmallestEnclosure p.1 {q | (∃ a ∈ γ x, ∃ b ∈ γ y, b ≠ 0 ∧ q = a / b) ∧ q ≤ 0} ∧
      V.Returns (divisionPart2 V.P x y true) fun z =>
        SmallestEnclosure z {q | (∃ a ∈ γ x, ∃ b ∈ γ y, b ≠ 0 ∧ q = a / b) ∧ 0 ≤ q} := by
  obtain ⟨r₀, hr₀, h₀⟩ := hx
  obtain ⟨a, b, ix⟩ := has_of_mem hr₀
  obtain ⟨s, hs, hs0⟩ := hn
  obtain ⟨t, ht, ht0⟩ := hp
  obtain ⟨c, d, iy⟩ := has_of_mem hs
  have hc : c < 0 := (iy.lb hs).trans_lt (by exact_mod_cast hs0)
  have hd : 0 < d := lt_of_lt_of_le (by exact_mod_cast ht0) (iy.ub ht)
  have hz : ¬ (a = 0 ∧ b = 0) := fun h => h₀ ((zero_bounds ix).1 h hr₀)
  have hab : b < 0 ∨ 0 ≤ a := by
    rcases hx' with h | h
    · exact .inl (neg_upper ix h)
    · right
      have h3 : IsGLB (E (γ x)) a := isGLB_of (fun r hr => ix.lb hr) ix.lower_cl
      exact h3.2 (by rintro _ ⟨r, hr, rfl⟩; exact_mod_cast h r hr)
  obtain ⟨k1, k2⟩ := divParts_post (hV.dir du_tight).op (hV.div du_tight) (V.infLaws hi) V.chk ix iy hc hd hz hab
  have n1 : {q | (∃ a ∈ γ x, ∃ b ∈ γ y, b ≠ 0 ∧ q = a / b) ∧ q ≤ 0}.Nonempty := by
    rcases le_total r₀ 0 with h | h
    · exact ⟨r₀ / t, ⟨r₀, hr₀, t, ht, ht0.ne', rfl⟩, div_nonpos_of_nonpos_of_nonneg h ht0.le⟩
    · exact ⟨r₀ / s, ⟨r₀, hr₀, s, hs, hs0.ne, rfl⟩, div_nonpos_of_nonneg_of_nonpos h hs0.le⟩
  have n2 : {q | (∃ a ∈ γ x, ∃ b ∈ γ y, b ≠ 0 ∧ q = a / b) ∧ 0 ≤ q}.Nonempty := by
    rcases le_total r₀ 0 with h | h
    · exact ⟨r₀ / s, ⟨r₀, hr₀, s, hs, hs0.ne, rfl⟩, div_nonneg_of_nonpos h hs0.le⟩
    · exact ⟨r₀ / t, ⟨r₀, hr₀, t, ht, ht0.ne', rfl⟩, div_nonneg h ht0.le⟩
  refine V.run hV (fun _ h => divisionPart1_sim h x y) (k1.mono fun p ⟨hp, hp'⟩ => ⟨hp, hp'.smallest n1, ?_⟩)
  exact V.sharp hV (fun _ h => divisionPart2_sim h x y true) k2 n2

/-- The second part without the flag. -/
theorem C17_part2_false (hV : V.Directed) : V.YieldsEmpty (divisionPart2 V.P x y false) :=
  V.runEmpty hV (fun _ h => divisionPart2_sim h x y false) rfl

/-! ## C18 -/

theorem not_mem_noZero {c d : EReal} (iy : Has y c d) (h0 : 0 ∉ γ y) : NoZero c d := by
  by_contra h
  unfold NoZero at h
  push Not at h
  exact h0 ((mem_zero_iff iy).2 h)

/-- What `fmod` computes: `n` is the floor of the quotient `e` rounded downwards, and `z` encloses `X - n * Y` as tightly as two
roundings allow, one of `n * Y` and one of the difference. In particular it contains `a - n * b` for all points. -/
def FmodBy (n : ℤ) (e : EReal) (X Y : Set ℝ) (z : Itv T) : Prop :=
  (∃ v : ℝ, IsRoundDown T v e ∧ n = ⌊v⌋) ∧ (∀ a ∈ X, ∀ b ∈ Y, a - n * b ∈ γ z) ∧
  ∃ N : Itv T, SmallestEnclosure N {q | ∃ b ∈ Y, n * b = q} ∧ SmallestEnclosure z {q | ∃ a ∈ X, ∃ t ∈ γ N, a - t = q}

theorem fmod_by {z : Itv T} {X Y : Set ℝ} {p : ℝ} {w : EReal} (hX : X.Nonempty) (hY : Y.Nonempty) (h : FmodOut p w X Y z) :
    ∃ n, FmodBy n (p / w) X Y z := by
  obtain ⟨n, h1, h2, N, h3, h4⟩ := h.1
  have h5 := h3.smallest ((singleton_nonempty _).image2 hY)
  have e : image2 (· * ·) {(n : ℝ)} Y = {q | ∃ b ∈ Y, n * b = q} := by rw [image2_singleton_left]; rfl
  rw [e] at h5
  obtain ⟨b, hb⟩ := hY
  exact ⟨n, h2, h1, N, h5, h4.smallest (hX.image2 ⟨_, h5.1 ⟨b, hb, rfl⟩⟩)⟩

theorem fmod_out {z : Itv T} {X : Set ℝ} {p : ℝ} {c d w : EReal} (hX : X.Nonempty) (iy : Has y c d) (hw : w = if p < 0 then c else d)
    (h : FmodOut p w X (γ y) z) : (∃ n : ℤ, FmodBy n (p / w) X (γ y) z) ∧
      ((∀ b ∈ γ y, 0 < b) → ∃ l u, val z.lower = some l ∧ val y.upper = some u ∧ 0 ≤ l ∧
        ((∀ q : ℝ, (p : EReal) / w = q → Representable T ((⌊q⌋ : ℝ) : EReal)) → l < u)) := by
  refine ⟨fmod_by hX iy.nonempty h, fun h1 => ?_⟩
  obtain ⟨q, hq⟩ := quot_real (p := p) (w := w)
  obtain ⟨l, k1, k2, -, k3⟩ := h.2 h1
  refine ⟨l, d, k1, iy.up, by exact_mod_cast k2, fun h2 => (k3 q hq (h2 q hq)).trans_le ?_⟩
  rw [hw]; split_ifs
  exacts [iy.le, le_rfl]

/-- `fmod(x, y)`. `p` is the lower bound of `x`, `w` the bound of `y` by which the code divides. What is missing: quotients
below the smallest finite number (`hm`), see `C18_overflow`. If `y` is positive, the lower bound of the result is not
negative, and it is below `y.upper()` if the floor of the exact quotient is a number of the base type; otherwise see
`C18_large`. -/
theorem C18_fmod_partial (hV : V.Tight) (hi : V.IntOk) (hx : (γ x).Nonempty) (hy : (γ y).Nonempty) (h0 : 0 ∉ γ y) {p : ℝ}
    (hp : val x.lower = some (p : EReal)) {w : EReal} (hw : val (if p < 0 then y.lower else y.upper) = some w)
    (hm : ∃ m : ℝ, Representable T m ∧ (m : EReal) ≤ p / w) :
    V.Returns (fmodII V.P x y) fun z => (∃ n : ℤ, FmodBy n (p / w) (γ x) (γ y) z) ∧
      ((∀ b ∈ γ y, 0 < b) → ∃ l u, val z.lower = some l ∧ val y.upper = some u ∧ 0 ≤ l ∧
        ((∀ q : ℝ, (p : EReal) / w = q → Representable T ((⌊q⌋ : ℝ) : EReal)) → l < u)) := by
  obtain ⟨a, b, ix⟩ := has_of_nonempty hx
  obtain ⟨c, d, iy⟩ := has_of_nonempty hy
  have ha : a = p := by have := ix.lo; rw [hp] at this; cases this; rfl
  have hw' : w = if p < 0 then c else d := by
    split_ifs at hw ⊢
    · rw [iy.lo] at hw; cases hw; rfl
    · rw [iy.up] at hw; cases hw; rfl
  exact V.run hV (fun _ h => fmodII_sim h x y)
    ((fmodII_post hV hi ix iy (not_mem_noZero iy h0) ha hw' hm).mono fun z hz => fmod_out hx iy hw' hz)

theorem C18_fmod_num_right_partial (hV : V.Tight) (hi : V.IntOk) (hx : (γ x).Nonempty) {p q : ℝ}
    (hp : val x.lower = some (p : EReal)) (ht : val t = some (q : EReal)) (h0 : q ≠ 0)
    (hm : ∃ m : ℝ, Representable T m ∧ m ≤ p / q) :
    V.Returns (fmodIT V.P x t) fun z => (∃ n : ℤ, FmodBy n ((p / q : ℝ) : EReal) (γ x) {q} z) ∧
      (0 < q → ∃ l, val z.lower = some l ∧ 0 ≤ l ∧ (Representable T ((⌊p / q⌋ : ℝ) : EReal) → l < q)) := by
  obtain ⟨a, b, ix⟩ := has_of_nonempty hx
  have ha : a = p := by have := ix.lo; rw [hp] at this; cases this; rfl
  have iy := has_single ht
  have hg : γ (⟨t, t⟩ : Itv T) = {q} := by rw [iy.gamma_Icc, Icc_self]
  obtain ⟨m, hm1, hm2⟩ := hm
  have hw' : (q : EReal) = if p < 0 then (q : EReal) else q := by simp
  have key := fmodII_post hV hi ix iy (not_mem_noZero iy (by rw [hg]; exact fun h => h0 h.symm)) ha hw'
    ⟨m, hm1, by rw [← EReal.coe_div]; exact_mod_cast hm2⟩
  rw [← fmodIT_eq ix ht] at key
  refine V.run hV (fun _ h => fmodIT_sim h x t) (key.mono fun z hz => ?_)
  rw [hg] at hz
  refine ⟨?_, fun h1 => ?_⟩
  · rw [EReal.coe_div]; exact fmod_by hx (singleton_nonempty q) hz
  · obtain ⟨l, k1, k2, -, k3⟩ := hz.2 (by rintro _ rfl; exact h1)
    exact ⟨l, k1, by exact_mod_cast k2, k3 (p / q) (by rw [EReal.coe_div])⟩

theorem C18_fmod_num_left_partial (hV : V.Tight) (hi : V.IntOk) (hy : (γ y).Nonempty) (h0 : 0 ∉ γ y) {p : ℝ}
    (ht : val t = some (p : EReal)) {w : EReal} (hw : val (if p < 0 then y.lower else y.upper) = some w)
    (hm : ∃ m : ℝ, Representable T m ∧ (m : EReal) ≤ p / w) :
    V.Returns (fmodTI V.P t y) fun z => (∃ n : ℤ, FmodBy n (p / w) {p} (γ y) z) ∧
      ((∀ b ∈ γ y, 0 < b) → ∃ l u, val z.lower = some l ∧ val y.upper = some u ∧ 0 ≤ l ∧
        ((∀ q : ℝ, (p : EReal) / w = q → Representable T ((⌊q⌋ : ℝ) : EReal)) → l < u)) := by
  obtain ⟨c, d, iy⟩ := has_of_nonempty hy
  have hw' : w = if p < 0 then c else d := by
    split_ifs at hw ⊢
    · rw [iy.lo] at hw; cases hw; rfl
    · rw [iy.up] at hw; cases hw; rfl
  exact V.run hV (fun _ h => fmodTI_sim h t y)
    ((fmodTI_post hV hi ht iy (not_mem_noZero iy h0) hw' hm).mono fun z hz => fmod_out (singleton_nonempty p) iy hw' hz)

/-- The floor of the rounded quotient is the floor of the quotient, if that is a number of the base type. -/
theorem FmodBy.floor {n : ℤ} {q : ℝ} {X Y : Set ℝ} {z : Itv T} (h : FmodBy n (q : EReal) X Y z)
    (hr : Representable T ((⌊q⌋ : ℝ) : EReal)) : n = ⌊q⌋ := by
  obtain ⟨⟨v, hv, rfl⟩, -⟩ := h
  have h1 : v ≤ q := by exact_mod_cast hv.2.1
  have h2 : (⌊q⌋ : ℝ) ≤ v := by
    have := hv.2.2 _ hr (by exact_mod_cast Int.floor_le q)
    exact_mod_cast this
  exact le_antisymm (Int.floor_le_floor h1) (Int.le_floor.2 h2)

theorem SmallestEnclosure.single {z : Itv T} {r : ℝ} (h : SmallestEnclosure z {r}) (hr : Representable T (r : EReal)) : γ z = {r} := by
  obtain ⟨t, ht⟩ := hr
  have := (h.2 ⟨t, t⟩ (by rw [gamma_single ht])).1
  rw [gamma_single ht] at this
  exact Subset.antisymm this h.1

/-- Positive singletons: the result contains the traditional `fmod`, and nothing else if the multiple and the traditional `fmod`
are numbers of the base type. Otherwise see `C18_not_traditional`. -/
theorem C18_traditional_partial (hV : V.Tight) (hi : V.IntOk) {s : T} {p q : ℝ} (hs : val s = some (p : EReal)) (ht : val t = some (q : EReal))
    (hp : 0 ≤ p) (hq : 0 < q) (hr : Representable T ((⌊p / q⌋ : ℝ) : EReal)) :
    V.Returns (fmodII V.P ⟨s, s⟩ ⟨t, t⟩) fun z => p - ⌊p / q⌋ * q ∈ γ z ∧
      (Representable T ((⌊p / q⌋ * q : ℝ) : EReal) → Representable T ((p - ⌊p / q⌋ * q : ℝ) : EReal) →
        γ z = {p - ⌊p / q⌋ * q}) := by
  have gs : γ (⟨s, s⟩ : Itv T) = {p} := gamma_single hs
  have gt : γ (⟨t, t⟩ : Itv T) = {q} := gamma_single ht
  refine (C18_fmod_partial V hV hi (by rw [gs]; exact singleton_nonempty p) (by rw [gt]; exact singleton_nonempty q)
    (by rw [gt]; exact hq.ne) (p := p) hs (w := q) (by rw [ite_self]; exact ht)
    ⟨0, ⟨_, val_zero⟩, by rw [← EReal.coe_div]; exact_mod_cast div_nonneg hp hq.le⟩).mono fun z hz => ?_
  obtain ⟨⟨n, hn⟩, -⟩ := hz
  rw [← EReal.coe_div, gs, gt] at hn
  have e := hn.floor hr
  subst e
  obtain ⟨-, h1, N, h2, h3⟩ := hn
  refine ⟨h1 p rfl q rfl, fun k1 k2 => ?_⟩
  have e1 : {r : ℝ | ∃ b ∈ ({q} : Set ℝ), (⌊p / q⌋ : ℝ) * b = r} = {⌊p / q⌋ * q} := by ext r; simp [eq_comm]
  rw [e1] at h2
  have e2 : {r : ℝ | ∃ a ∈ ({p} : Set ℝ), ∃ t ∈ γ N, a - t = r} = {p - ⌊p / q⌋ * q} := by
    rw [h2.single k1]; ext r; simp [eq_comm]
  rw [e2] at h3
  exact h3.single k2

/-- `fmod` of the double precision numbers 13510798882111492 and 4503599627370497 is 1; on intervals it is `[-0, 2]`. -/
theorem C18_not_traditional :
    let p : Fl Fmt.double := Fl.ofInt .near 13510798882111492
    let q : Fl Fmt.double := Fl.ofInt .near 4503599627370497
    (fmodII dbl.P ⟨p, p⟩ ⟨q, q⟩ (⟨(⟨.near, ()⟩ : FEnv Unit), fun _ => true⟩ : dbl.State)).1 =
      .ok ⟨.zero true, Fl.ofInt .near 2⟩ := by
  decide +kernel

/-- A quotient below the smallest finite number: `fmod([-max, -max], [1/4, 1/4])` is `[+∞, +∞]`. It contains no real
number, and is not empty for the library either. -/
theorem C18_overflow :
    let q : Fl Fmt.double := Fl.div .near (Num.lit 1) (Num.lit 4)
    (fmodII dbl.P ⟨Fl.max _ true, Fl.max _ true⟩ ⟨q, q⟩ (⟨(⟨.near, ()⟩ : FEnv Unit), fun _ => true⟩ : dbl.State)).1 =
      .ok ⟨.inf false, .inf false⟩ := by
  decide +kernel

/-- A quotient whose floor is not a number of the format: `fmod([n, n], [3, 3])` is `[256, 256]`
for `n = 2017612633061982208`. -/
theorem C18_large :
    let q : Fl Fmt.double := Fl.ofInt .near 2017612633061982208
    let r : Fl Fmt.double := Fl.ofInt .near 256
    (fmodII dbl.P ⟨q, q⟩ (litI 3 3) (⟨(⟨.near, ()⟩ : FEnv Unit), fun _ => true⟩ : dbl.State)).1 = .ok ⟨r, r⟩ := by
  decide +kernel

/-! ## C47 -/

/-- `pow(x, k)`. What is missing: `k = 0` with `x = {0}`, where the code returns the empty interval although the power
is `1` (`C47_zero_zero`), and the smallest `int`, where the negation overflows (`C47_min`). For negative `k` the base type
must have infinities if zero lies in `x`. -/
theorem C47_pow_partial (hV : V.Signed) (hx : (γ x).Nonempty) {k : ℤ} (hk : k ≠ -2147483648)
    (h0 : k ≤ 0 → ∃ r ∈ γ x, r ≠ 0) (hi : k < 0 → InfBase T) :
    V.Returns (powI V.P x k) fun z => ∀ a ∈ γ x, (k < 0 → a ≠ 0) → a ^ k ∈ γ z := by
  obtain ⟨a, b, ix⟩ := has_of_nonempty hx
  refine V.run hV (fun _ h => powI_sim h x k) (powI_post (hV.dir du_signed) (hV.div du_signed) V.chk ix hk
    (fun h => V.infLaws (hi h)) fun h h' => ?_)
  obtain ⟨r, hr, hr0⟩ := h0 h
  exact hr0 ((zero_bounds ix).1 h' hr)

/-- Powers of `{0}`: empty for negative exponents — and for exponent zero. -/
theorem C47_zero (hV : V.Signed) (hx : γ x = {0}) {k : ℤ} (hk : k ≠ -2147483648) (h : k ≤ 0) :
    V.YieldsEmpty (powI V.P x k) := by
  obtain ⟨_, _, ix⟩ := has_of_nonempty (x := x) (by rw [hx]; exact ⟨0, rfl⟩)
  exact V.runEmpty hV (fun _ h => powI_sim h x k)
    (powI_zero_neg (hV.dir du_signed) V.chk ix hk ((zero_bounds ix).2 hx.subset) h)

/-- The documented value of `pow([0,0], 0)` is `1`. -/
theorem C47_zero_zero :
    ¬ dbl.Returns (powI dbl.P (litI 0 0) 0) fun z => ∀ a ∈ γ (litI 0 0 : Itv (Fl Fmt.double)), a ^ (0 : ℤ) ∈ γ z := by
  intro h
  obtain ⟨z, h1, -⟩ := h (⟨(⟨.near, ()⟩ : FEnv Unit), fun _ => true⟩ : dbl.State) trivial
  have h2 : (powI dbl.P (litI 0 0) 0 (⟨(⟨.near, ()⟩ : FEnv Unit), fun _ => true⟩ : dbl.State)).1 = .error .emptyCreated := by
    decide +kernel
  rw [h1] at h2; cases h2

/-- The negation of the smallest `int` overflows. -/
theorem C47_min (hV : V.Signed) (hx : (γ x).Nonempty) : V.Throws (powI V.P x (-2147483648)) .ub := by
  obtain ⟨a, b, ix⟩ := has_of_nonempty hx
  obtain ⟨J, hJ⟩ := V.sim hV.kindOk
  exact V.throws_of (powI_sim hJ x _) (powI_min V.chk ix)

/-! ## The hypotheses can be met -/

theorem dbl_sqrt : dbl.SqrtOk (IsRoundDown (Fl .double)) (IsRoundUp (Fl .double)) := dbl.fl_sqrtOk (by decide)
theorem flt_sqrt : flt.SqrtOk (IsRoundDown (Fl .single)) (IsRoundUp (Fl .single)) := flt.fl_sqrtOk (by decide)
theorem dbl_int : dbl.IntOk := dbl.fl_intOk (by decide)
theorem rat_tight : ratEnv.Tight := Env.rat_ok _ rfl (fun _ _ _ _ => rfl) _ _
theorem fl_noneg {f : Fmt} (a : Fl f) : Num.neg a ≠ none := by intro h; cases h

example := C15_square dbl dbl_directed (x := litI (-2) 3) ne_lit
example := C15_sqrt flt flt_directed (flt_sqrt.mono (fun h => h.2.1) fun h => h.2.1) (x := litI (-2) 3) ⟨2, in_lit, by norm_num⟩
example := C15_sqrt_neg flt flt_directed (x := litI (-3) (-2)) ne_lit (fun r hr => by
  have := ((mem_litI (by decide) (by decide)).1 hr).2; push_cast at this; linarith)
example := C15_inverse_partial ratEnv (rat_tight.directed) (x := litI 2 3) ⟨2, in_lit, by norm_num⟩
  (.inr (by rw [mem_litI (by decide) (by decide)]; norm_num))
example := C15_inverse_zero dbl dbl_directed (x := litI 0 0) (by
  ext r; rw [mem_litI (by decide) (by decide)]; push_cast; exact ⟨fun h => le_antisymm h.2 h.1, fun h => by rw [h]; simp⟩)
example := C12_square dbl dbl_tight (x := litI (-2) 3) ne_lit
example := C12_sqrt dbl dbl_tight dbl_sqrt (x := litI (-2) 3) ⟨2, in_lit, by norm_num⟩
example := C12_inverse dbl dbl_tight fl_inf (x := litI (-2) 3) ⟨2, in_lit, by norm_num⟩
example := C13_sqrt dbl dbl_tight dbl_sqrt (x := litI 1 2) (x' := litI (-2) 3) ⟨2, in_lit, by norm_num⟩ (by
  intro r hr
  rw [mem_litI (by decide) (by decide)] at hr ⊢
  push_cast at *
  constructor <;> linarith)
example := C13_pow dbl dbl_tight (x := litI 1 2) (x' := litI (-2) 3) (k := -3) (by decide) ne_lit
  (fun _ => ⟨2, in_lit, by norm_num⟩) (fun _ => fl_inf) (by
  intro r hr
  rw [mem_litI (by decide) (by decide)] at hr ⊢
  push_cast at *
  constructor <;> linarith)
example := C16_square ratEnv rat_tight (x := litI (-2) 3) ne_lit
example := C17_cover_partial dbl dbl_directed (.inl fl_inf) (x := litI 1 2) (y := litI (-1) 2) ne_lit ⟨2, in_lit, by norm_num⟩
example := C17_sharp dbl dbl_tight fl_inf (x := litI 1 2) (y := litI (-1) 2) ⟨2, in_lit, by norm_num⟩
  (.inr (fun r hr => by have := ((mem_litI (by decide) (by decide)).1 hr).1; push_cast at this; linarith))
  ⟨-1, in_lit, by norm_num⟩ ⟨2, in_lit, by norm_num⟩
/-- `fmod([5, 7], [2, 3])` -/
example : dbl.Returns (fmodII dbl.P (litI 5 7) (litI 2 3)) fun z => ∃ n : ℤ, ∀ a ∈ γ (litI 5 7 : Itv (Fl Fmt.double)),
    ∀ b ∈ γ (litI 2 3 : Itv (Fl Fmt.double)), a - n * b ∈ γ z := by
  refine (C18_fmod_partial dbl dbl_tight dbl_int ne_lit ne_lit (by rw [mem_litI (by decide) (by decide)]; norm_num)
    (p := ((5 : ℤ) : ℝ)) (NumLaws.lit 5 (by decide)) (w := (((3 : ℤ) : ℝ) : EReal))
    (by rw [if_neg (by norm_num)]; exact NumLaws.lit 3 (by decide)) ⟨0, ⟨Num.lit 0, val_zero⟩, ?_⟩).mono fun z hz => hz.1.imp fun n h => h.2.1
  rw [← EReal.coe_div]; exact EReal.coe_le_coe_iff.2 (by norm_num)
/-- `fmod([7, 7], [3, 3])` is `[1, 1]`. -/
example : dbl.Returns (fmodII dbl.P (litI 7 7) (litI 3 3)) fun z => γ z = {1} := by
  have e : ⌊((7 : ℤ) : ℝ) / ((3 : ℤ) : ℝ)⌋ = 2 := by rw [Int.floor_eq_iff]; norm_num
  refine (C18_traditional_partial dbl dbl_tight dbl_int (NumLaws.lit 7 (by decide)) (NumLaws.lit 3 (by decide)) (by norm_num)
    (by norm_num) ⟨Num.lit 2, by rw [e]; exact NumLaws.lit 2 (by decide)⟩).mono fun z hz => ?_
  rw [e] at hz
  have h1 : (((2 : ℤ) : ℝ) * ((3 : ℤ) : ℝ)) = ((6 : ℤ) : ℝ) := by norm_num
  have h2 : (((7 : ℤ) : ℝ) - ((6 : ℤ) : ℝ)) = ((1 : ℤ) : ℝ) := by norm_num
  rw [h1, h2] at hz
  simpa using hz.2 ⟨Num.lit 6, NumLaws.lit 6 (by decide)⟩ ⟨Num.lit 1, NumLaws.lit 1 (by decide)⟩
example := C47_pow_partial dbl dbl_tight.signed (x := litI (-2) 3) (k := -3) ne_lit (by decide)
  (fun _ => ⟨2, in_lit, by norm_num⟩) (fun _ => fl_inf)
example := C47_pow_partial ratEnv rat_tight.signed (x := litI (-2) 3) (k := 5) ne_lit (by decide)
  (fun h => absurd h (by decide)) (fun h => absurd h (by decide))

end BI
