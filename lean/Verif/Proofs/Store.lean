import Verif.Proofs.Register
import Verif.Proofs.Bridge
/-! # Storing the contents of registers late -/

namespace BI
open Set

variable {f g : Fmt}

theorem SamePrec.nested (h : SamePrec f g) : Nested f g := nested_of h.prec.le h.low h.high

/-- Multiples of the smallest number are numbers of the format as long as they fit into the significand. -/
theorem rep_grid {n : ℤ} (h : |(n : ℝ) * (2 : ℝ) ^ f.emin| < (2 : ℝ) ^ (f.emin + f.p)) :
    Rep f ((n : ℚ) * (2 : ℚ) ^ f.emin) := by
  refine ⟨n, f.emin, ?_, le_rfl, f.hmin.trans f.hmax, rfl⟩
  rw [abs_mul, abs_of_pos (two_zpow_pos (K := ℝ) f.emin), zpow_add₀ two_ne_zero, mul_comm,
    mul_lt_mul_iff_right₀ (two_zpow_pos _), zpow_natCast] at h
  exact_mod_cast h

theorem log_of_normal {a : ℝ} (h : (2 : ℝ) ^ (f.emin + f.p - 1) ≤ |a|) : f.emin ≤ Int.log 2 |a| - f.p + 1 := by
  have ha : 0 < |a| := lt_of_lt_of_le (two_zpow_pos _) h
  have := (Int.zpow_le_iff_le_log (b := 2) one_lt_two ha).1 (by exact_mod_cast h)
  omega

theorem roundUnb_normal (hw : SamePrec f g) (r : RMode) {a : ℝ} (h : (2 : ℝ) ^ (f.emin + f.p - 1) ≤ |a|) :
    roundUnb g r a = roundUnb f r a := by
  have h1 := log_of_normal h
  have : ulpExp g a = ulpExp f a := by
    unfold ulpExp
    rw [← hw.prec, max_eq_right h1, max_eq_right (hw.low.trans h1)]
  unfold roundUnb
  rw [this]

/-- A number that fits is one of the format or in the normal range. -/
theorem Fits.cases {a : ℝ} (h : Fits f a) :
    (∃ q : ℚ, Rep f q ∧ a = q) ∨ (2 : ℝ) ^ (f.emin + f.p - 1) ≤ |a| := by
  rcases h.2 with h' | ⟨n, rfl⟩
  · exact .inr h'
  · rcases lt_or_ge |(n : ℝ) * (2 : ℝ) ^ f.emin| ((2 : ℝ) ^ (f.emin + f.p)) with h' | h'
    · exact .inl ⟨_, rep_grid h', by push_cast; rfl⟩
    · exact .inr ((two_zpow_le (by omega)).trans h')

theorem maxFin_mono (hw : SamePrec f g) : maxFin f ≤ maxFin g := by
  have := rep_abs_le (hw.nested _ (rep_maxFin f))
  exact (le_abs_self _).trans this

/-- The register holds what a direct rounding would have given. -/
theorem rnd_fits (hw : SamePrec f g) (r : RMode) (s : Bool) {a : ℝ} (h : Fits f a) :
    ∃ q : ℚ, Rep f q ∧ val (rnd g r s a) = some ((q : ℝ) : EReal) ∧ val (rnd f r s a) = some ((q : ℝ) : EReal) := by
  rcases h.cases with ⟨q, hq, rfl⟩ | hn
  · refine ⟨q, hq, ?_, ?_⟩
    · rw [rnd_cast]; exact rnd_exact r s (hw.nested q hq)
    · rw [rnd_cast]; exact rnd_exact r s hq
  · have h0 : a ≠ 0 := by
      rintro rfl
      rw [abs_zero] at hn
      exact absurd hn (not_le.2 (two_zpow_pos _))
    obtain ⟨b1, b2⟩ := abs_le.1 h.1
    have hu : roundUnb f r a ≤ maxFin f := roundUnb_le r h0 (rep_maxFin f) b2
    have hl : -maxFin f ≤ roundUnb f r a :=
      le_roundUnb r h0 (rep_neg (rep_maxFin f)) (by push_cast; exact b1)
    have he := roundUnb_normal hw r hn
    have hm := maxFin_mono hw
    refine ⟨roundUnb f r a, rep_roundUnb f r a hu hl, ?_, ?_⟩
    · unfold rnd
      rw [if_neg h0]
      by_cases hz : roundUnb g r a = 0
      · rw [dif_pos hz, ← he, hz]; simp [val]
      · rw [dif_neg hz, dif_pos (by rw [he]; exact hu.trans hm), dif_pos (by rw [he]; linarith)]
        change some (((roundUnb g r a : ℚ) : ℝ) : EReal) = _
        rw [he]
    · unfold rnd
      rw [if_neg h0]
      by_cases hz : roundUnb f r a = 0
      · rw [dif_pos hz, hz]; simp [val]
      · rw [dif_neg hz, dif_pos hu, dif_pos hl]; rfl

/-- Storing a number of the base type. -/
theorem val_store {c : Fl g} {e : EReal} (r : RMode) (hc : val c = some e) (he : Representable (Fl f) e) :
    val (c.convert f r) = some e := by
  cases c with
  | nan => cases hc
  | inf s => cases s <;> exact hc
  | zero s => exact hc
  | nz q hq =>
    cases hc
    rcases (representable_iff _).1 he with h | h | ⟨p, hp, h⟩
    · cases h
    · cases h
    · have : q = p := by exact_mod_cast h
      subst this
      exact rnd_exact r _ hp

theorem val_load (h : Nested f g) {a : Fl f} {e : EReal} (r : RMode) (ha : val a = some e) :
    val (a.convert g r) = some e := val_store r ha (h.representable ⟨a, ha⟩)

theorem val_load_iff (h : Nested f g) {a : Fl f} (r : RMode) : val (a.convert g r) = val a := by
  cases a with
  | nan => rfl
  | inf s => cases s <;> rfl
  | zero s => rfl
  | nz q hq => exact val_load h r rfl

theorem gamma_load (h : Nested f g) (x : Itv (Fl f)) : γ (loadI g x) = γ x := by
  ext q
  constructor
  · rintro ⟨a, b, h1, h2, h3⟩
    exact ⟨a, b, (val_load_iff h .near).symm.trans h1, (val_load_iff h .near).symm.trans h2, h3⟩
  · rintro ⟨a, b, h1, h2, h3⟩
    exact ⟨a, b, val_load h .near h1, val_load h .near h2, h3⟩

theorem isRoundDown_fits (hw : SamePrec f g) {a : ℝ} {l : EReal} (h : Fits f a) (hl : IsRoundDown (Fl g) l a) :
    IsRoundDown (Fl f) l a := by
  obtain ⟨q, hq, h1, h2⟩ := rnd_fits hw .down false h
  obtain ⟨z, hz, hs⟩ := rnd_spec (f := g) .down false a
  obtain ⟨z', hz', hs'⟩ := rnd_spec (f := f) .down false a
  rw [h1] at hz; cases hz
  rw [h2] at hz'; cases hz'
  have k := hs.isDown ⟨_, h1⟩
  have : l = ((q : ℝ) : EReal) := le_antisymm (k.2.2 _ hl.1 hl.2.1) (hl.2.2 _ k.1 k.2.1)
  subst this
  exact hs'.isDown ⟨_, h2⟩

theorem isRoundUp_fits (hw : SamePrec f g) {a : ℝ} {u : EReal} (h : Fits f a) (hu : IsRoundUp (Fl g) u a) :
    IsRoundUp (Fl f) u a := by
  obtain ⟨q, hq, h1, h2⟩ := rnd_fits hw .up false h
  obtain ⟨z, hz, hs⟩ := rnd_spec (f := g) .up false a
  obtain ⟨z', hz', hs'⟩ := rnd_spec (f := f) .up false a
  rw [h1] at hz; cases hz
  rw [h2] at hz'; cases hz'
  have k := hs.isUp ⟨_, h1⟩
  have : u = ((q : ℝ) : EReal) := le_antisymm (hu.2.2 _ k.1 k.2.1) (k.2.2 _ hu.1 hu.2.1)
  subst this
  exact hs'.isUp ⟨_, h2⟩

/-- The bounds of the smallest enclosure of a bounded set are its rounded limits. -/
theorem smallest_bounds {T : Type} [Num T] [Val T] [NumLaws T] {z : Itv T} {S : Set ℝ} {a b : ℝ}
    (h : SmallestEnclosure z S) (hS : S.Nonempty) (ha : IsGLB S a) (hb : IsLUB S b) :
    (∃ l, val z.lower = some l ∧ IsRoundDown T l a) ∧ ∃ u, val z.upper = some u ∧ IsRoundUp T u b := by
  obtain ⟨h1, h2⟩ := h
  obtain ⟨s, hs⟩ := hS
  obtain ⟨l, u, h3, h4, h5, h6⟩ := h1 hs
  have hl : ∀ t ∈ S, l ≤ ((t : ℝ) : EReal) := fun t ht => by
    obtain ⟨l', u', k1, k2, k3, k4⟩ := h1 ht; rw [h3] at k1; cases k1; exact k3
  have hu : ∀ t ∈ S, ((t : ℝ) : EReal) ≤ u := fun t ht => by
    obtain ⟨l', u', k1, k2, k3, k4⟩ := h1 ht; rw [h4] at k2; cases k2; exact k4
  have hla : l ≤ (a : EReal) := by
    induction l with
    | bot => exact bot_le
    | top => exact absurd h5 (by simp)
    | coe l => exact_mod_cast ha.2 fun t ht => by exact_mod_cast hl t ht
  have hub : (b : EReal) ≤ u := by
    induction u with
    | bot => exact absurd h6 (by simp)
    | top => exact le_top
    | coe u => exact_mod_cast hb.2 fun t ht => by exact_mod_cast hu t ht
  refine ⟨⟨l, h3, ⟨_, h3⟩, hla, ?_⟩, u, h4, ⟨_, h4⟩, hub, ?_⟩
  · rintro w ⟨t, ht⟩ hw
    refine ((h2 ⟨t, z.upper⟩ fun q hq => ⟨w, u, ht, h4, hw.trans ?_, hu q hq⟩).2 l u w u h3 h4 ht h4).1
    exact_mod_cast ha.1 hq
  · rintro w ⟨t, ht⟩ hw
    refine ((h2 ⟨z.lower, t⟩ fun q hq => ⟨l, w, h3, ht, hl q hq, le_trans ?_ hw⟩).2 l u l w h3 h4 h3 ht).2
    exact_mod_cast hb.1 hq

theorem store_smallest (hw : Nested f g) {z : Itv (Fl g)} {S : Set ℝ} (r r' : RMode) {l u : EReal}
    (h : SmallestEnclosure z S) (hl : val z.lower = some l) (hu : val z.upper = some u)
    (kl : Representable (Fl f) l) (ku : Representable (Fl f) u) : SmallestEnclosure (storeI f r r' z) S := by
  have el : val (storeI f r r' z).lower = some l := val_store r hl kl
  have eu : val (storeI f r r' z).upper = some u := val_store r' hu ku
  have hγ : γ (storeI f r r' z) = γ z := by
    ext q
    constructor
    · rintro ⟨a, b, h1, h2, h3⟩
      rw [el] at h1; rw [eu] at h2; cases h1; cases h2
      exact ⟨l, u, hl, hu, h3⟩
    · rintro ⟨a, b, h1, h2, h3⟩
      rw [hl] at h1; rw [hu] at h2; cases h1; cases h2
      exact ⟨l, u, el, eu, h3⟩
  refine ⟨hγ ▸ h.1, fun z' hz' => ?_⟩
  obtain ⟨k1, k2⟩ := h.2 (loadI g z') (by rw [gamma_load hw]; exact hz')
  rw [gamma_load hw] at k1
  refine ⟨hγ ▸ k1, fun a b a' b' m1 m2 m3 m4 => ?_⟩
  rw [el] at m1; rw [eu] at m2; cases m1; cases m2
  exact k2 _ _ _ _ hl hu (val_load hw .near m3) (val_load hw .near m4)

/-- Numbers of the format are multiples of the smallest one. -/
theorem rep_multiple {q : ℚ} (h : Rep f q) : ∃ n : ℤ, (q : ℝ) = n * (2 : ℝ) ^ f.emin := by
  obtain ⟨m, e, -, h2, -, rfl⟩ := h
  obtain ⟨k, hk⟩ := Int.le.dest h2
  refine ⟨m * 2 ^ k, ?_⟩
  push_cast
  rw [mul_assoc, ← zpow_natCast, ← zpow_add₀ two_ne_zero]
  congr 2; omega

/-- Finite bounds are multiples of the smallest number. -/
theorem val_multiple {a : Fl f} {x : ℝ} (h : val a = some (x : EReal)) : ∃ n : ℤ, x = n * (2 : ℝ) ^ f.emin := by
  rcases (representable_iff _).1 ⟨a, h⟩ with h | h | ⟨q, hq, h⟩
  · cases h
  · cases h
  · have : x = q := by exact_mod_cast h
    rw [this]; exact rep_multiple hq

theorem real_bounds {x : Itv (Fl f)} {a b q : ℝ} (hl : val x.lower = some (a : EReal))
    (hu : val x.upper = some (b : EReal)) (h : q ∈ γ x) : a ≤ q ∧ q ≤ b := by
  obtain ⟨l, u, h1, h2, h3, h4⟩ := h
  rw [hl] at h1; rw [hu] at h2; cases h1; cases h2
  exact ⟨by exact_mod_cast h3, by exact_mod_cast h4⟩

theorem smallest_point {T : Type} [Num T] [Val T] [NumLaws T] {z : Itv T} {S : Set ℝ} {c : ℝ}
    (h : SmallestEnclosure z S) (hS : S = {c}) (hc : Representable T (c : EReal)) :
    val z.lower = some (c : EReal) ∧ val z.upper = some (c : EReal) := by
  subst hS
  obtain ⟨⟨l, hl, -, k1, k2⟩, u, hu, -, k3, k4⟩ :=
    smallest_bounds h (singleton_nonempty c) isGLB_singleton isLUB_singleton
  rw [hl, hu, le_antisymm k1 (k2 _ hc le_rfl), le_antisymm (k4 _ hc le_rfl) k3]
  exact ⟨rfl, rfl⟩

theorem gamma_point {T : Type} [Val T] {z : Itv T} {c : ℝ} (hl : val z.lower = some (c : EReal))
    (hu : val z.upper = some (c : EReal)) : γ z = {c} := by
  ext q
  constructor
  · rintro ⟨a, b, h1, h2, h3, h4⟩
    rw [hl] at h1; rw [hu] at h2; cases h1; cases h2
    exact le_antisymm (by exact_mod_cast h4) (by exact_mod_cast h3)
  · rintro rfl
    exact ⟨_, _, hl, hu, le_rfl, le_rfl⟩

/-- Storing upwards a number above the largest one. -/
theorem store_overflow {c : Fl g} {x : ℝ} (hc : val c = some (x : EReal)) (hx : (maxFin f : ℝ) < x) :
    val (c.convert f .up) = some ⊤ := by
  obtain ⟨z, hz, k⟩ := convert_rounds (g := f) .up hc
  rw [hz]
  have h := k.upw rfl
  rcases (representable_iff _).1 ⟨_, hz⟩ with rfl | rfl | ⟨q, hq, rfl⟩
  · simp at h
  · rfl
  · have h' : x ≤ (q : ℝ) := by exact_mod_cast h
    have : (q : ℝ) ≤ maxFin f := by exact_mod_cast (le_abs_self q).trans (rep_abs_le hq)
    linarith

theorem rep_smallest : Rep f ((2 : ℚ) ^ f.emin) :=
  ⟨1, f.emin, by simpa using one_lt_pow₀ (by norm_num : (1 : ℤ) < 2) (by have := f.hp; omega), le_rfl,
    f.hmin.trans f.hmax, by simp⟩

/-- Storing upwards a positive number below the smallest one. -/
theorem store_underflow {c : Fl g} {x : ℝ} (hc : val c = some (x : EReal)) (h0 : 0 < x) (hx : x ≤ (2 : ℝ) ^ f.emin) :
    val (c.convert f .up) = some (((2 : ℝ) ^ f.emin : ℝ) : EReal) := by
  obtain ⟨z, hz, k⟩ := convert_rounds (g := f) .up hc
  rw [hz]
  have h := k.upw rfl
  have hr : Representable (Fl f) (((2 : ℝ) ^ f.emin : ℝ) : EReal) :=
    (representable_iff _).2 (.inr (.inr ⟨_, rep_smallest, by push_cast; rfl⟩))
  have hle := k.up _ hr (by exact_mod_cast hx)
  rcases (representable_iff _).1 ⟨_, hz⟩ with rfl | rfl | ⟨q, hq, rfl⟩
  · simp at h
  · simp at hle
  · have h' : x ≤ (q : ℝ) := by exact_mod_cast h
    have hle' : (q : ℝ) ≤ (2 : ℝ) ^ f.emin := by exact_mod_cast hle
    obtain ⟨n, hn⟩ := rep_multiple hq
    have hn0 : 0 < n := by
      by_contra hneg
      push Not at hneg
      have : (n : ℝ) * (2 : ℝ) ^ f.emin ≤ 0 :=
        mul_nonpos_of_nonpos_of_nonneg (by exact_mod_cast hneg) (two_zpow_pos _).le
      linarith
    have hn1 : (1 : ℝ) ≤ n := by exact_mod_cast hn0
    have : (q : ℝ) = (2 : ℝ) ^ f.emin := by
      refine le_antisymm hle' ?_
      rw [hn]
      have := two_zpow_pos (K := ℝ) f.emin
      nlinarith
    rw [this]
end BI
