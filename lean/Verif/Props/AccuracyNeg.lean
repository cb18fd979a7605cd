import Verif.Props.Accuracy
/-!
# C77: negative exponents

`pow(x, -n)` inverts `pow(x, n)`: the error of the `n - 1` multiplications, and one more rounding.
-/

namespace BI
open Set

variable {f : Fmt}

namespace Accuracy

theorem relErr_nonneg (k : ℕ) : 0 ≤ relErr f k :=
  sub_nonneg.2 (one_le_pow₀ (by linarith [eps_pos (f := f)]))

/-- The loss of a factor on one side is bounded by the gain on the other side. -/
theorem two_sides {e d : ℝ} (he : 0 ≤ e) (hd : 0 ≤ d) (h1 : d < 1) : 1 - (1 - e) / (1 + d) ≤ (1 + e) / (1 - d) - 1 := by
  have h2 : 0 < 1 - d := by linarith
  have h3 : 0 < 1 + d := by linarith
  have h4 : (1 + e) / (1 - d) + (1 - e) / (1 + d) - 2 = (2 * e * d + 2 * d ^ 2) / ((1 - d) * (1 + d)) := by
    field_simp; ring
  have h5 : 0 ≤ (2 * e * d + 2 * d ^ 2) / ((1 - d) * (1 + d)) := by positivity
  linarith

/-- The larger end: `Y` is `X` up to a loss of `d`, `z` is `1 / Y` rounded away from zero. -/
theorem inv_big {e d X Y z : ℝ} (he : 0 ≤ e) (h1 : d < 1) (hX : 0 < X) (hY : X * (1 - d) ≤ Y) (hz : z ≤ 1 / Y + e * (1 / Y)) :
    z - 1 / X ≤ ((1 + e) / (1 - d) - 1) * (1 / X) := by
  have h2 : 0 < 1 - d := by linarith
  have h3 : 1 / Y ≤ 1 / (X * (1 - d)) := one_div_le_one_div_of_le (by positivity) hY
  have h4 : (1 + e) * (1 / Y) ≤ (1 + e) * (1 / (X * (1 - d))) := mul_le_mul_of_nonneg_left h3 (by linarith)
  have h5 : (1 + e) * (1 / (X * (1 - d))) = (1 + e) / (1 - d) * (1 / X) := by field_simp
  linarith

/-- The smaller end. -/
theorem inv_small {e d X Y z : ℝ} (he : 0 ≤ e) (he' : e ≤ 1) (hd : 0 ≤ d) (h1 : d < 1) (hX : 0 < X) (h0 : 0 < Y)
    (hY : Y ≤ X * (1 + d)) (hz : 1 / Y - e * (1 / Y) ≤ z) : 1 / X - z ≤ ((1 + e) / (1 - d) - 1) * (1 / X) := by
  have h3 : 1 / (X * (1 + d)) ≤ 1 / Y := one_div_le_one_div_of_le h0 hY
  have h4 : (1 - e) * (1 / (X * (1 + d))) ≤ (1 - e) * (1 / Y) := mul_le_mul_of_nonneg_left h3 (by linarith)
  have h5 : (1 - e) * (1 / (X * (1 + d))) = (1 - e) / (1 + d) * (1 / X) := by
    have : 0 < 1 + d := by linarith
    field_simp
  have h6 := mul_le_mul_of_nonneg_right (two_sides he hd h1) (one_div_pos.2 hX).le
  linarith

theorem inv_range {k : ℕ} {X Y : ℝ} (h : InvSafe f k X) (h0 : 0 < Y) (h1 : X * (1 - relErr f k) ≤ Y)
    (h2 : Y ≤ X * (1 + relErr f k)) : normal f ≤ 1 / Y ∧ 1 / Y ≤ maxFin f := by
  have n0 : 0 < normal f := by unfold normal; positivity
  have m0 : (0 : ℝ) ≤ maxFin f := by exact_mod_cast (maxFin_pos f).le
  constructor
  · rw [le_div_iff₀ h0]; exact (mul_le_mul_of_nonneg_left h2 n0.le).trans h.1
  · rw [div_le_iff₀ h0]; exact h.2.trans (mul_le_mul_of_nonneg_left h1 m0)

/-- Inverting an approximation of a set without zero. -/
theorem inv_within {k : ℕ} {r z : Itv (Fl f)} {S : Set ℝ} {a b : ℝ} (ha : IsLeast S a) (hb : IsGreatest S b) (h0 : 0 < a ∨ b < 0)
    (hr : WithinRel k r S) (sa : InvSafe f k |a|) (sb : InvSafe f k |b|) (h1 : relErr f k < 1)
    (hz : (0 : ℝ) ∉ γ r → SmallestEnclosure z {q | ∃ c ∈ ({1} : Set ℝ), ∃ b ∈ γ r, b ≠ 0 ∧ q = c / b}) :
    (0 : ℝ) ∉ γ r ∧ WithinPart ((1 + eps f) / (1 - relErr f k) - 1) z {w | ∃ s ∈ S, 1 / s = w} := by
  obtain ⟨l, hl, l1, l2⟩ := hr.2.1 a ha.isGLB
  obtain ⟨u, hu, u1, u2⟩ := hr.2.2 b hb.isLUB
  have ab : a ≤ b := hb.2 ha.1
  have e0 := (eps_pos (f := f)).le
  have e1 := eps_le (f := f)
  have d0 := relErr_nonneg (f := f) k
  change a - l ≤ relErr f k * |a| at l2
  change u - b ≤ relErr f k * |b| at u2
  have mem : ∀ {t : ℝ}, t ∈ γ r ↔ l ≤ t ∧ t ≤ u := by
    intro t
    have i : Has r (l : EReal) u := ⟨hl, hu, EReal.coe_ne_top _, EReal.coe_ne_bot _, by exact_mod_cast l1.trans (ab.trans u1)⟩
    rw [i.gamma]
    exact ⟨fun h => ⟨by exact_mod_cast h.1, by exact_mod_cast h.2⟩, fun h => ⟨by exact_mod_cast h.1, by exact_mod_cast h.2⟩⟩
  have lu : l ≤ u := l1.trans (ab.trans u1)
  -- both bounds are on the same side of zero
  have same : 0 < l ∨ u < 0 := by
    rcases h0 with h | h
    · left; rw [abs_of_pos h] at l2; nlinarith
    · right; rw [abs_of_neg h] at u2; nlinarith
  have nz : (0 : ℝ) ∉ γ r := fun h => by
    have := mem.1 h
    rcases same with h | h <;> linarith
  have inv : ∀ {s t : ℝ}, l ≤ s → s ≤ t → t ≤ u → 1 / t ≤ 1 / s := fun {s t} h2 h3 h4 => by
    rcases same with h | h
    · exact one_div_le_one_div_of_le (by linarith) h3
    · exact one_div_le_one_div_of_neg_of_le (by linarith) h3
  set Q : Set ℝ := {q | ∃ c ∈ ({1} : Set ℝ), ∃ b ∈ γ r, b ≠ 0 ∧ q = c / b} with hQ
  have inQ : ∀ {t : ℝ}, l ≤ t → t ≤ u → 1 / t ∈ Q := fun {t} h2 h3 =>
    ⟨1, rfl, t, mem.2 ⟨h2, h3⟩, fun h => nz (h ▸ mem.2 ⟨h2, h3⟩), rfl⟩
  have gl : IsGLB Q (1 / u) := by
    refine IsLeast.isGLB ⟨inQ lu le_rfl, ?_⟩
    rintro _ ⟨_, rfl, t, ht, -, rfl⟩
    exact inv (mem.1 ht).1 (mem.1 ht).2 le_rfl
  have gu : IsLUB Q (1 / l) := by
    refine IsGreatest.isLUB ⟨inQ le_rfl lu, ?_⟩
    rintro _ ⟨_, rfl, t, ht, -, rfl⟩
    exact inv le_rfl (mem.1 ht).1 (mem.1 ht).2
  have W := C77_smallest (f := f) ⟨_, inQ le_rfl lu⟩ (hz nz)
  have leastS : IsLeast {w | ∃ s ∈ S, 1 / s = w} (1 / b) := by
    refine ⟨⟨b, hb.1, rfl⟩, ?_⟩
    rintro _ ⟨s, hs, rfl⟩
    exact inv (l1.trans (ha.2 hs)) (hb.2 hs) u1
  have greatS : IsGreatest {w | ∃ s ∈ S, 1 / s = w} (1 / a) := by
    refine ⟨⟨a, ha.1, rfl⟩, ?_⟩
    rintro _ ⟨s, hs, rfl⟩
    exact inv l1 (ha.2 hs) ((hb.2 hs).trans u1)
  -- the magnitudes of the bounds
  have abs_inv : ∀ {Y : ℝ}, normal f ≤ 1 / |Y| → 1 / |Y| ≤ maxFin f → |1 / Y| ≤ maxFin f ∧ unit f (1 / Y) = eps f * (1 / |Y|) := by
    intro Y h2 h3
    have e : |1 / Y| = 1 / |Y| := by rw [abs_div, abs_one]
    refine ⟨e ▸ h3, ?_⟩
    rw [← unit_normal h2, ← e]
    unfold unit; rw [abs_abs]
  have fin : ∀ {zl zu : ℝ}, val z.lower = some (zl : EReal) → val z.upper = some (zu : EReal) → zl ≤ 1 / u → 1 / l ≤ zu →
      1 / b - zl ≤ ((1 + eps f) / (1 - relErr f k) - 1) * |1 / b| → zu - 1 / a ≤ ((1 + eps f) / (1 - relErr f k) - 1) * |1 / a| →
      WithinPart ((1 + eps f) / (1 - relErr f k) - 1) z {w | ∃ s ∈ S, 1 / s = w} := by
    intro zl zu k1 k2 k3 k4 k5 k6
    refine ⟨?_, fun c hc => ?_, fun c hc => ?_⟩
    · rintro _ ⟨s, hs, rfl⟩
      exact W.1 (inQ (l1.trans (ha.2 hs)) ((hb.2 hs).trans u1))
    · obtain rfl := hc.unique leastS.isGLB
      exact ⟨zl, k1, k3.trans (inv (l1.trans ab) u1 le_rfl), k5⟩
    · obtain rfl := hc.unique greatS.isLUB
      exact ⟨zu, k2, (inv le_rfl l1 (ab.trans u1)).trans k4, k6⟩
  refine ⟨nz, ?_⟩
  rcases h0 with h | h
  · have hb0 : 0 < b := h.trans_le ab
    have l0 : 0 < l := same.resolve_right fun h' => by linarith
    have u0 : 0 < u := l0.trans_le lu
    rw [abs_of_pos h] at l2 sa
    rw [abs_of_pos hb0] at u2 sb
    have ll : a * (1 - relErr f k) ≤ l := by linarith
    have uu : u ≤ b * (1 + relErr f k) := by linarith
    obtain ⟨r1, r2⟩ := inv_range sa l0 ll (by nlinarith)
    obtain ⟨r3, r4⟩ := inv_range sb u0 (by nlinarith) uu
    rw [← abs_of_pos l0] at r1 r2
    rw [← abs_of_pos u0] at r3 r4
    obtain ⟨m1, m2⟩ := abs_inv r1 r2
    obtain ⟨m3, m4⟩ := abs_inv r3 r4
    obtain ⟨zu, zu1, zu2, zu3, -⟩ := W.2.2 _ gu m1
    obtain ⟨zl, zl1, zl2, zl3, -⟩ := W.2.1 _ gl m3
    rw [m2, abs_of_pos l0] at zu3
    rw [m4, abs_of_pos u0] at zl3
    refine fin zl1 zu1 zl2 zu2 ?_ ?_
    · rw [abs_of_pos (one_div_pos.2 hb0)]
      exact inv_small e0 e1 d0 h1 hb0 u0 uu (by linarith)
    · rw [abs_of_pos (one_div_pos.2 h)]
      exact inv_big e0 h1 h ll (by linarith)
  · have ha0 : a < 0 := ab.trans_lt h
    have u0 : u < 0 := same.resolve_left fun h' => by linarith
    have l0 : l < 0 := lu.trans_lt u0
    rw [abs_of_neg ha0] at l2 sa
    rw [abs_of_neg h] at u2 sb
    have ll : -l ≤ -a * (1 + relErr f k) := by linarith
    have uu : -b * (1 - relErr f k) ≤ -u := by linarith
    obtain ⟨r1, r2⟩ := inv_range sa (neg_pos.2 l0) (by nlinarith) ll
    obtain ⟨r3, r4⟩ := inv_range sb (neg_pos.2 u0) uu (by nlinarith)
    rw [← abs_of_neg l0] at r1 r2
    rw [← abs_of_neg u0] at r3 r4
    obtain ⟨m1, m2⟩ := abs_inv r1 r2
    obtain ⟨m3, m4⟩ := abs_inv r3 r4
    obtain ⟨zu, zu1, zu2, zu3, -⟩ := W.2.2 _ gu m1
    obtain ⟨zl, zl1, zl2, zl3, -⟩ := W.2.1 _ gl m3
    rw [m2, abs_of_neg l0] at zu3
    rw [m4, abs_of_neg u0] at zl3
    have n : ∀ t : ℝ, 1 / -t = -(1 / t) := fun t => by rw [one_div_neg_eq_neg_one_div]
    refine fin zl1 zu1 zl2 zu2 ?_ ?_
    · rw [abs_of_neg (one_div_neg.2 h)]
      have := inv_big (z := -zl) e0 h1 (neg_pos.2 h) uu (by rw [n] at zl3 ⊢; linarith)
      rw [n] at this; linarith
    · rw [abs_of_neg (one_div_neg.2 ha0)]
      have := inv_small (z := -zu) e0 e1 d0 h1 (neg_pos.2 ha0) (neg_pos.2 l0) ll (by rw [n] at zu3 ⊢; linarith)
      rw [n] at this; linarith

/-- The powers of an interval without zero. -/
theorem pow_range {p q : ℝ} (hpq : p ≤ q) (h0 : 0 < p ∨ q < 0) (n : ℕ) :
    ∃ a b, IsLeast {w | ∃ r, (p ≤ r ∧ r ≤ q) ∧ r ^ n = w} a ∧ IsGreatest {w | ∃ r, (p ≤ r ∧ r ≤ q) ∧ r ^ n = w} b ∧ (0 < a ∨ b < 0) ∧
      (|a| = |p| ^ n ∨ |a| = |q| ^ n) ∧ (|b| = |p| ^ n ∨ |b| = |q| ^ n) := by
  have ap := abs_pow p n
  have aq := abs_pow q n
  rcases h0 with h | h
  · refine ⟨p ^ n, q ^ n, ⟨⟨p, ⟨le_rfl, hpq⟩, rfl⟩, ?_⟩, ⟨⟨q, ⟨hpq, le_rfl⟩, rfl⟩, ?_⟩, .inl (by positivity), .inl ap, .inr aq⟩
    · rintro _ ⟨r, hr, rfl⟩; exact pow_le_pow_left₀ h.le hr.1 n
    · rintro _ ⟨r, hr, rfl⟩; exact pow_le_pow_left₀ (h.le.trans hr.1) hr.2 n
  · rcases Nat.even_or_odd n with hn | hn
    · refine ⟨q ^ n, p ^ n, ⟨⟨q, ⟨hpq, le_rfl⟩, rfl⟩, ?_⟩, ⟨⟨p, ⟨le_rfl, hpq⟩, rfl⟩, ?_⟩, .inl (hn.pow_pos h.ne), .inr aq, .inl ap⟩
      · rintro _ ⟨r, hr, rfl⟩
        rw [← hn.neg_pow q, ← hn.neg_pow r]; exact pow_le_pow_left₀ (by linarith) (by linarith [hr.2]) n
      · rintro _ ⟨r, hr, rfl⟩
        rw [← hn.neg_pow p, ← hn.neg_pow r]; exact pow_le_pow_left₀ (by linarith [hr.2]) (by linarith [hr.1]) n
    · refine ⟨p ^ n, q ^ n, ⟨⟨p, ⟨le_rfl, hpq⟩, rfl⟩, ?_⟩, ⟨⟨q, ⟨hpq, le_rfl⟩, rfl⟩, ?_⟩, .inr (hn.pow_neg h), .inl ap, .inr aq⟩
      · rintro _ ⟨r, hr, rfl⟩; exact hn.pow_le_pow.2 hr.1
      · rintro _ ⟨r, hr, rfl⟩; exact hn.pow_le_pow.2 hr.2

end Accuracy

/-- `pow(x, -n)` for an interval without zero: the relative error of `n - 1` multiplications, inverted, and one more rounding,
provided neither the powers of the bounds nor their inverses overflow or underflow. -/
theorem C77_pow_neg (V : Env (Fl f)) (hk : V.kind ≠ .exact) {x : Itv (Fl f)} {p q : ℝ} (hp : val x.lower = some (p : EReal))
    (hq : val x.upper = some (q : EReal)) (hpq : p ≤ q) (h0 : 0 < p ∨ q < 0) {n : ℕ} (hn : 0 < n) (hm : -(n : ℤ) ≠ -2147483648)
    (sp : PowSafe f n |p|) (sq : PowSafe f n |q|) (ip : InvSafe f (n - 1) (|p| ^ n)) (iq : InvSafe f (n - 1) (|q| ^ n))
    (h1 : relErr f (n - 1) < 1) :
    V.Returns (powI V.P x (-(n : ℤ))) fun z =>
      WithinPart ((1 + eps f) / (1 - relErr f (n - 1)) - 1) z {w | ∃ r, r ∈ γ x ∧ 1 / r ^ n = w} := by
  have hV := V.fl_tight hk
  have ix : Has x (p : EReal) q := ⟨hp, hq, EReal.coe_ne_top _, EReal.coe_ne_bot _, by exact_mod_cast hpq⟩
  have mem : ∀ {r : ℝ}, r ∈ γ x ↔ p ≤ r ∧ r ≤ q := by
    intro r; rw [ix.gamma]
    exact ⟨fun h => ⟨by exact_mod_cast h.1, by exact_mod_cast h.2⟩, fun h => ⟨by exact_mod_cast h.1, by exact_mod_cast h.2⟩⟩
  obtain ⟨a, b, ha, hb, hab, sa, sb⟩ := Accuracy.pow_range hpq h0 n
  have sa' : InvSafe f (n - 1) |a| := by rcases sa with e | e <;> rw [e] <;> assumption
  have sb' : InvSafe f (n - 1) |b| := by rcases sb with e | e <;> rw [e] <;> assumption
  simp only [← mem] at ha hb
  refine V.run hV (fun _ h => powI_sim h x _) ?_
  unfold powI
  have hm' : ¬ (-(n : ℤ)) = intMin := hm
  rw [pure_chk, res_if_false (ix.test V.chk), if_pos (by omega), if_neg hm', neg_neg, Int.toNat_natCast]
  refine (Accuracy.powNat_acc (hV.dir du_tight) (hV.signed.dir du_signed) V.chk ix hn sp sq).bind fun r hr => ?_
  obtain ⟨l, hl, l1, -⟩ := hr.2.1 a ha.isGLB
  obtain ⟨u, hu, u1, -⟩ := hr.2.2 b hb.isLUB
  have ir : Has r (l : EReal) u :=
    ⟨hl, hu, EReal.coe_ne_top _, EReal.coe_ne_bot _, by exact_mod_cast l1.trans ((hb.2 ha.1).trans u1)⟩
  have o : val (Num.lit 1 : Fl f) = some ((1 : ℝ) : EReal) := by rw [val_one]; rfl
  have e : {w : ℝ | ∃ s ∈ {w | ∃ r, r ∈ γ x ∧ r ^ n = w}, 1 / s = w} = {w | ∃ r, r ∈ γ x ∧ 1 / r ^ n = w} := by
    ext w
    constructor
    · rintro ⟨_, ⟨r, h, rfl⟩, rfl⟩; exact ⟨r, h, rfl⟩
    · rintro ⟨r, h, rfl⟩; exact ⟨_, ⟨r, h, rfl⟩, rfl⟩
  have nz : (0 : ℝ) ∉ γ r := by
    intro h
    rw [ir.gamma] at h
    have k1 : l ≤ 0 := by exact_mod_cast h.1
    have k2 : 0 ≤ u := by exact_mod_cast h.2
    obtain ⟨l', hl', -, l2⟩ := hr.2.1 a ha.isGLB
    obtain ⟨u', hu', -, u2⟩ := hr.2.2 b hb.isLUB
    obtain rfl : l' = l := by exact_mod_cast Option.some.inj (hl'.symm.trans hl)
    obtain rfl : u' = u := by exact_mod_cast Option.some.inj (hu'.symm.trans hu)
    change a - l' ≤ relErr f (n - 1) * |a| at l2
    change u' - b ≤ relErr f (n - 1) * |b| at u2
    rcases hab with h | h
    · rw [abs_of_pos h] at l2; nlinarith
    · rw [abs_of_neg h] at u2; nlinarith
  rw [multInv_eq V.chk ir]
  refine (divTI_nz_post (hV.div du_tight) V.chk o ir nz).mono fun z hz => ?_
  rw [← e]
  exact (Accuracy.inv_within ha hb hab hr sa' sb' h1 fun _ =>
    hz.smallest (quot_nonempty (singleton_nonempty 1) ⟨l, (ir.gamma ▸ ⟨le_rfl, by exact_mod_cast ir.le⟩ : l ∈ γ r), fun h => nz (h ▸ (ir.gamma ▸ ⟨le_rfl, by exact_mod_cast ir.le⟩ : l ∈ γ r))⟩)).2

/-! ## The hypotheses can be met -/

private theorem eps_dbl : eps Fmt.double = 2 ^ (-52 : ℤ) := rfl

private theorem safe3 : PowSafe Fmt.double 5 |(3 : ℝ)| := by
  have n : normal Fmt.double ≤ 1 := by
    unfold normal; exact zpow_le_one_of_nonpos₀ (by norm_num) (by decide)
  have m : (300 : ℝ) ≤ maxFin Fmt.double := by
    have : (300 : ℚ) ≤ maxFin Fmt.double := by decide +kernel
    exact_mod_cast this
  rw [abs_of_pos (by norm_num)]
  refine Accuracy.powSafe_of (by norm_num) (by linarith) (by linarith) (n.trans ?_) (le_trans ?_ m) <;> rw [eps_dbl] <;> norm_num

private theorem rel4 : relErr Fmt.double 4 < 1 / 2 := by unfold relErr; rw [eps_dbl]; norm_num

private theorem inv3 : InvSafe Fmt.double (5 - 1) (|(3 : ℝ)| ^ 5) := by
  have n : normal Fmt.double ≤ 2 ^ (-10 : ℤ) := by
    unfold normal; exact zpow_le_zpow_right₀ (by norm_num) (by decide)
  have m : (300 : ℝ) ≤ maxFin Fmt.double := by
    have : (300 : ℚ) ≤ maxFin Fmt.double := by decide +kernel
    exact_mod_cast this
  have d := rel4
  have d0 := Accuracy.relErr_nonneg (f := Fmt.double) 4
  rw [abs_of_pos (by norm_num)]
  refine ⟨?_, ?_⟩
  · calc normal Fmt.double * (3 ^ 5 * (1 + relErr Fmt.double (5 - 1))) ≤ 2 ^ (-10 : ℤ) * (3 ^ 5 * (1 + relErr Fmt.double 4)) :=
          mul_le_mul_of_nonneg_right n (by positivity)
      _ ≤ 1 := by norm_num; linarith
  · calc (1 : ℝ) ≤ 300 * (3 ^ 5 * (1 - relErr Fmt.double 4)) := by linarith
      _ ≤ _ := mul_le_mul_of_nonneg_right m (by linarith)

private theorem litval (n : ℤ) (h : |n| ≤ 7) : val (Num.lit n : Fl Fmt.double) = some (((n : ℝ)) : EReal) := NumLaws.lit n h

example := C77_pow_neg dbl (fun h => by cases h) (x := litI 3 3) (p := 3) (q := 3) (n := 5) (by exact_mod_cast litval 3 (by decide))
  (by exact_mod_cast litval 3 (by decide)) le_rfl (.inl (by norm_num)) (by norm_num) (by decide) safe3 safe3 inv3 inv3
  (rel4.trans (by norm_num))
example := C77_pow_neg dbl (fun h => by cases h) (x := litI (-3) (-3)) (p := -3) (q := -3) (n := 5)
  (by exact_mod_cast litval (-3) (by decide)) (by exact_mod_cast litval (-3) (by decide)) le_rfl (.inr (by norm_num)) (by norm_num)
  (by decide) (by rw [abs_neg]; exact safe3) (by rw [abs_neg]; exact safe3) (by rw [abs_neg]; exact inv3)
  (by rw [abs_neg]; exact inv3) (rel4.trans (by norm_num))

end BI
