import Verif.Proofs.Instances
/-!
# C12, C13, C41, C49, C51, C52: sharpness, isotonicity, symmetries of the four operations

`V.Tight`: the arithmetic of the base type is correctly rounded (all IEEE formats, exact types). `SmallestEnclosure z S`
says that `z` contains `S` and is contained in every interval that does. Statements about two calls are written with two
nested `V.Returns`: the calls are made from unrelated states.
-/

namespace BI
open Set

variable {T : Type} [Num T] [Val T] [NumLaws T] (V : Env T) {x y x' y' : Itv T} {t : T} {r : ℝ}

/-- Common part of the proofs. -/
theorem Env.sharp (hV : V.Tight) {op : M V.ctl.W (Itv T)} {p : Res (Itv T)} {S : Set ℝ}
    (hs : ∀ J, PSim (outer V.laws) J V.P V.B V.C → Sim (outer V.laws) op p)
    (hp : Post True p (Bnd (IsRoundDown T) (IsRoundUp T) S)) (hS : S.Nonempty) :
    V.Returns op fun z => SmallestEnclosure z S :=
  V.run hV hs (hp.mono fun _ hz => hz.smallest hS)

/-! ## C12 -/

theorem C12_add (hV : V.Tight) (hx : (γ x).Nonempty) (hy : (γ y).Nonempty) :
    V.Returns (addII V.P x y) fun z => SmallestEnclosure z {q | ∃ a ∈ γ x, ∃ b ∈ γ y, a + b = q} := by
  obtain ⟨_, _, ix⟩ := has_of_nonempty hx
  obtain ⟨_, _, iy⟩ := has_of_nonempty hy
  exact V.sharp hV (fun _ h => addII_sim h x y) (addII_post (hV.dir du_tight).op V.chk ix iy) (hx.image2 hy)

theorem C12_sub (hV : V.Tight) (hx : (γ x).Nonempty) (hy : (γ y).Nonempty) :
    V.Returns (subII V.P x y) fun z => SmallestEnclosure z {q | ∃ a ∈ γ x, ∃ b ∈ γ y, a - b = q} := by
  obtain ⟨_, _, ix⟩ := has_of_nonempty hx
  obtain ⟨_, _, iy⟩ := has_of_nonempty hy
  exact V.sharp hV (fun _ h => subII_sim h x y) (subII_post (hV.dir du_tight).op V.chk ix iy) (hx.image2 hy)

theorem C12_mul (hV : V.Tight) (hx : (γ x).Nonempty) (hy : (γ y).Nonempty) :
    V.Returns (mulII V.P x y) fun z => SmallestEnclosure z {q | ∃ a ∈ γ x, ∃ b ∈ γ y, a * b = q} := by
  obtain ⟨_, _, ix⟩ := has_of_nonempty hx
  obtain ⟨_, _, iy⟩ := has_of_nonempty hy
  exact V.sharp hV (fun _ h => mulII_sim h x y) (mulII_post (hV.dir du_tight).op V.chk ix iy) (hx.image2 hy)

theorem quot_nonempty {X Y : Set ℝ} (hX : X.Nonempty) (hY : ∃ b ∈ Y, b ≠ 0) : (quot X Y).Nonempty := by
  obtain ⟨a, ha⟩ := hX
  obtain ⟨b, hb, h⟩ := hY
  exact ⟨_, a, ha, b, hb, h, rfl⟩

theorem C12_div (hV : V.Tight) (hx : (γ x).Nonempty) (hy : (γ y).Nonempty) (h0 : 0 ∉ γ y) :
    V.Returns (divII V.P x y) fun z => SmallestEnclosure z {q | ∃ a ∈ γ x, ∃ b ∈ γ y, b ≠ 0 ∧ q = a / b} := by
  obtain ⟨_, _, ix⟩ := has_of_nonempty hx
  obtain ⟨_, _, iy⟩ := has_of_nonempty hy
  obtain ⟨b, hb⟩ := hy
  exact V.sharp hV (fun _ h => divII_sim h x y) (divII_nz_post (hV.div du_tight) V.chk ix iy h0)
    (quot_nonempty hx ⟨b, hb, fun h => h0 (h ▸ hb)⟩)

theorem C12_add_num (hV : V.Tight) (ht : val t = some (r : EReal)) (hy : (γ y).Nonempty) :
    V.Returns (addTI V.P t y) fun z => SmallestEnclosure z {q | ∃ a ∈ ({r} : Set ℝ), ∃ b ∈ γ y, a + b = q} := by
  obtain ⟨_, _, iy⟩ := has_of_nonempty hy
  exact V.sharp hV (fun _ h => addTI_sim h t y) (addTI_post (hV.dir du_tight).op V.chk ht iy)
    ((singleton_nonempty r).image2 hy)

theorem C12_add_num' (hV : V.Tight) (ht : val t = some (r : EReal)) (hy : (γ y).Nonempty) :
    V.Returns (addIT V.P y t) fun z => SmallestEnclosure z {q | ∃ a ∈ γ y, ∃ b ∈ ({r} : Set ℝ), a + b = q} := by
  obtain ⟨_, _, iy⟩ := has_of_nonempty hy
  exact V.sharp hV (fun _ h => addIT_sim h y t) (addIT_post (hV.dir du_tight).op V.chk ht iy)
    (hy.image2 (singleton_nonempty r))

theorem C12_sub_num (hV : V.Tight) (ht : val t = some (r : EReal)) (hy : (γ y).Nonempty) :
    V.Returns (subTI V.P t y) fun z => SmallestEnclosure z {q | ∃ a ∈ ({r} : Set ℝ), ∃ b ∈ γ y, a - b = q} := by
  obtain ⟨_, _, iy⟩ := has_of_nonempty hy
  exact V.sharp hV (fun _ h => subTI_sim h t y) (subTI_post (hV.dir du_tight).op V.chk ht iy)
    ((singleton_nonempty r).image2 hy)

theorem C12_sub_num' (hV : V.Tight) (ht : val t = some (r : EReal)) (hy : (γ y).Nonempty) :
    V.Returns (subIT V.P y t) fun z => SmallestEnclosure z {q | ∃ a ∈ γ y, ∃ b ∈ ({r} : Set ℝ), a - b = q} := by
  obtain ⟨_, _, iy⟩ := has_of_nonempty hy
  exact V.sharp hV (fun _ h => subIT_sim h y t) (subIT_post (hV.dir du_tight).op V.chk ht iy)
    (hy.image2 (singleton_nonempty r))

theorem C12_mul_num (hV : V.Tight) (ht : val t = some (r : EReal)) (hy : (γ y).Nonempty) :
    V.Returns (mulTI V.P t y) fun z => SmallestEnclosure z {q | ∃ a ∈ ({r} : Set ℝ), ∃ b ∈ γ y, a * b = q} := by
  obtain ⟨_, _, iy⟩ := has_of_nonempty hy
  exact V.sharp hV (fun _ h => mulTI_sim h t y) (mulTI_post (hV.dir du_tight).op V.chk ht iy)
    ((singleton_nonempty r).image2 hy)

theorem C12_mul_num' (hV : V.Tight) (ht : val t = some (r : EReal)) (hy : (γ y).Nonempty) :
    V.Returns (mulIT V.P y t) fun z => SmallestEnclosure z {q | ∃ a ∈ γ y, ∃ b ∈ ({r} : Set ℝ), a * b = q} := by
  obtain ⟨_, _, iy⟩ := has_of_nonempty hy
  exact V.sharp hV (fun _ h => mulIT_sim h y t) (mulIT_post (hV.dir du_tight).op V.chk ht iy)
    (hy.image2 (singleton_nonempty r))

theorem C12_div_num (hV : V.Tight) (ht : val t = some (r : EReal)) (hy : (γ y).Nonempty) (h0 : 0 ∉ γ y) :
    V.Returns (divTI V.P t y) fun z =>
      SmallestEnclosure z {q | ∃ a ∈ ({r} : Set ℝ), ∃ b ∈ γ y, b ≠ 0 ∧ q = a / b} := by
  obtain ⟨_, _, iy⟩ := has_of_nonempty hy
  obtain ⟨b, hb⟩ := hy
  exact V.sharp hV (fun _ h => divTI_sim h t y) (divTI_nz_post (hV.div du_tight) V.chk ht iy h0)
    (quot_nonempty (singleton_nonempty r) ⟨b, hb, fun h => h0 (h ▸ hb)⟩)

theorem C12_div_num' (hV : V.Tight) (hx : (γ x).Nonempty) (ht : val t = some (r : EReal)) (h0 : r ≠ 0) :
    V.Returns (divIT V.P x t) fun z =>
      SmallestEnclosure z {q | ∃ a ∈ γ x, ∃ b ∈ ({r} : Set ℝ), b ≠ 0 ∧ q = a / b} := by
  obtain ⟨_, _, ix⟩ := has_of_nonempty hx
  exact V.sharp hV (fun _ h => divIT_sim h x t) (divIT_post (hV.div du_tight) V.chk ix ht h0)
    (quot_nonempty hx ⟨r, rfl, h0⟩)

/-! ## C52 -/

/-- Division by an interval that contains zero, for base types with infinities: smallest, except if the dividend is
`[a, 0]` with `a < 0` and zero is a bound of the divisor. What is missing: that exception, see `C52_gap` and
`C52_not_smallest`. -/
theorem C52_div_partial (hV : V.Tight) (hi : InfBase T) (hx : (γ x).Nonempty) (hy : ∃ b ∈ γ y, b ≠ 0)
    (hg : ¬ ((∃ a ∈ γ x, a < 0) ∧ val x.upper = some 0 ∧ (val y.lower = some 0 ∨ val y.upper = some 0))) :
    V.Returns (divII V.P x y) fun z => SmallestEnclosure z {q | ∃ a ∈ γ x, ∃ b ∈ γ y, b ≠ 0 ∧ q = a / b} := by
  obtain ⟨a, b, ix⟩ := has_of_nonempty hx
  obtain ⟨b₀, hb₀, h₀⟩ := hy
  obtain ⟨c, d, iy⟩ := has_of_mem hb₀
  have hne : ¬ (c = 0 ∧ d = 0) := fun h => h₀ ((zero_bounds iy).1 h hb₀)
  refine V.sharp hV (fun _ h => divII_sim h x y)
    (divII_post (hV.dir du_tight).op (hV.div du_tight) (V.infLaws hi) V.chk ix iy hne ?_) (quot_nonempty hx ⟨b₀, hb₀, h₀⟩)
  rintro ⟨⟨h1, rfl⟩, h2⟩
  refine hg ⟨?_, ix.up, ?_⟩
  · by_contra h
    push Not at h
    have h3 : IsGLB (E (γ x)) a := isGLB_of (fun r hr => ix.lb hr) ix.lower_cl
    have h4 : 0 ≤ a := h3.2 (by rintro _ ⟨r, hr, rfl⟩; exact_mod_cast h r hr)
    exact absurd h1 (not_lt.2 h4)
  · rcases h2 with rfl | rfl
    · exact .inl iy.lo
    · exact .inr iy.up

/-- A number divided by an interval that contains zero: smallest in all cases. -/
theorem C52_div_num (hV : V.Tight) (hi : InfBase T) (ht : val t = some (r : EReal)) (hy : ∃ b ∈ γ y, b ≠ 0) :
    V.Returns (divTI V.P t y) fun z =>
      SmallestEnclosure z {q | ∃ a ∈ ({r} : Set ℝ), ∃ b ∈ γ y, b ≠ 0 ∧ q = a / b} := by
  obtain ⟨b₀, hb₀, h₀⟩ := hy
  obtain ⟨c, d, iy⟩ := has_of_mem hb₀
  have hne : ¬ (c = 0 ∧ d = 0) := fun h => h₀ ((zero_bounds iy).1 h hb₀)
  exact V.sharp hV (fun _ h => divTI_sim h t y)
    (divTI_post (hV.dir du_tight).op (hV.div du_tight) (V.infLaws hi) V.chk ht iy hne)
    (quot_nonempty (singleton_nonempty r) ⟨b₀, hb₀, h₀⟩)

theorem neg_lower {a b : EReal} (ix : Has x a b) (h : ∃ p ∈ γ x, p < 0) : a < 0 := by
  obtain ⟨p, hp, h⟩ := h
  exact (ix.lb hp).trans_lt (by exact_mod_cast h)

/-- In the exceptional case the answer is the whole line. -/
theorem C52_gap (hV : V.Directed) (hi : InfBase T) (hx : ∃ a ∈ γ x, a < 0) (hu : val x.upper = some 0)
    (hy : ∃ b ∈ γ y, b ≠ 0) (hz : val y.lower = some 0 ∨ val y.upper = some 0) :
    V.Returns (divII V.P x y) fun z => γ z = univ := by
  obtain ⟨p, hp, h1⟩ := hx
  obtain ⟨a, b, ix⟩ := has_of_mem hp
  obtain ⟨b₀, hb₀, h₀⟩ := hy
  obtain ⟨c, d, iy⟩ := has_of_mem hb₀
  have hne : ¬ (c = 0 ∧ d = 0) := fun h => h₀ ((zero_bounds iy).1 h hb₀)
  refine V.run hV (fun _ h => divII_sim h x y) (Q := fun z => γ z = univ) ?_
  have hb : b = 0 := by have := ix.up; rw [hu] at this; cases this; rfl
  have hcd : c = 0 ∨ d = 0 := by
    rcases hz with h | h
    · rw [iy.lo] at h; cases h; exact .inl rfl
    · rw [iy.up] at h; cases h; exact .inr rfl
  rw [divII_gap (V.infLaws hi) V.chk ix iy hne ⟨neg_lower ix ⟨p, hp, h1⟩, hb⟩ hcd]
  obtain ⟨w, hw, h3, h4⟩ := whole_ok (V.infLaws hi)
  rw [hw]
  exact eq_univ_of_forall fun r => ⟨⊥, ⊤, h3, h4, bot_le, le_top⟩

/-! ## C13 -/

theorem C13_add (hV : V.Tight) (hx : (γ x).Nonempty) (hy : (γ y).Nonempty) (hxx : γ x ⊆ γ x') (hyy : γ y ⊆ γ y') :
    V.Returns (addII V.P x y) fun z => V.Returns (addII V.P x' y') fun z' => γ z ⊆ γ z' :=
  (C12_add V hV hx hy).mono fun _ hz => (C12_add V hV (hx.mono hxx) (hy.mono hyy)).mono fun _ hz' =>
    hz.mono hz' (image2_subset hxx hyy)

theorem C13_sub (hV : V.Tight) (hx : (γ x).Nonempty) (hy : (γ y).Nonempty) (hxx : γ x ⊆ γ x') (hyy : γ y ⊆ γ y') :
    V.Returns (subII V.P x y) fun z => V.Returns (subII V.P x' y') fun z' => γ z ⊆ γ z' :=
  (C12_sub V hV hx hy).mono fun _ hz => (C12_sub V hV (hx.mono hxx) (hy.mono hyy)).mono fun _ hz' =>
    hz.mono hz' (image2_subset hxx hyy)

theorem C13_mul (hV : V.Tight) (hx : (γ x).Nonempty) (hy : (γ y).Nonempty) (hxx : γ x ⊆ γ x') (hyy : γ y ⊆ γ y') :
    V.Returns (mulII V.P x y) fun z => V.Returns (mulII V.P x' y') fun z' => γ z ⊆ γ z' :=
  (C12_mul V hV hx hy).mono fun _ hz => (C12_mul V hV (hx.mono hxx) (hy.mono hyy)).mono fun _ hz' =>
    hz.mono hz' (image2_subset hxx hyy)

theorem quot_mono {X Y X' Y' : Set ℝ} (h : X ⊆ X') (h' : Y ⊆ Y') : quot X Y ⊆ quot X' Y' := by
  rintro q ⟨a, ha, b, hb, h0, rfl⟩; exact ⟨a, h ha, b, h' hb, h0, rfl⟩

/-- Division without zero in the divisors, for every base type. -/
theorem C13_div_nz (hV : V.Tight) (hx : (γ x).Nonempty) (hy : (γ y).Nonempty) (hxx : γ x ⊆ γ x') (hyy : γ y ⊆ γ y')
    (h0 : 0 ∉ γ y') : V.Returns (divII V.P x y) fun z => V.Returns (divII V.P x' y') fun z' => γ z ⊆ γ z' :=
  (C12_div V hV hx hy fun h => h0 (hyy h)).mono fun _ hz =>
    (C12_div V hV (hx.mono hxx) (hy.mono hyy) h0).mono fun _ hz' => hz.mono hz' (quot_mono hxx hyy)

/-- Division in general (the exceptional case of C52 included), for base types with infinities. -/
theorem C13_div (hV : V.Tight) (hi : InfBase T) (hx : (γ x).Nonempty) (hy : ∃ b ∈ γ y, b ≠ 0) (hxx : γ x ⊆ γ x')
    (hyy : γ y ⊆ γ y') : V.Returns (divII V.P x y) fun z => V.Returns (divII V.P x' y') fun z' => γ z ⊆ γ z' := by
  have hy' : ∃ b ∈ γ y', b ≠ 0 := by obtain ⟨b, h1, h2⟩ := hy; exact ⟨b, hyy h1, h2⟩
  by_cases hg : (∃ a ∈ γ x, a < 0) ∧ val x.upper = some 0 ∧ (val y.lower = some 0 ∨ val y.upper = some 0)
  · -- then the larger quotient is the whole line
    refine (C52_gap V hV.directed hi hg.1 hg.2.1 hy hg.2.2).mono fun z _ => ?_
    obtain ⟨a, b, ix⟩ := has_of_nonempty hx
    obtain ⟨a', b', ix'⟩ := has_of_nonempty (hx.mono hxx)
    obtain ⟨c₀, hc₀, h₀⟩ := hy
    obtain ⟨c, d, iy⟩ := has_of_mem hc₀
    obtain ⟨c', d', iy'⟩ := has_of_mem (hyy hc₀)
    have hb : b = 0 := by have := ix.up; rw [hg.2.1] at this; cases this; rfl
    obtain ⟨h1, h2⟩ := ix.subset ix' hxx
    obtain ⟨h3, h4⟩ := iy.subset iy' hyy
    have ha := neg_lower ix hg.1
    have hcd : c ≤ 0 ∧ 0 ≤ d := by
      rcases hg.2.2 with h | h
      · rw [iy.lo] at h; cases h; exact ⟨le_rfl, iy.le⟩
      · rw [iy.up] at h; cases h; exact ⟨iy.le, le_rfl⟩
    have hne : ¬ (c' = 0 ∧ d' = 0) := fun h => h₀ ((zero_bounds iy').1 h (hyy hc₀))
    have ha' : a' < 0 := h1.trans_lt ha
    have hb' : 0 ≤ b' := hb ▸ h2
    refine V.run hV (fun _ h => divII_sim h x' y') (Q := fun z' => γ z ⊆ γ z') ?_
    have hwhole : divII (purePolicies V.B V.C) x' y' = wholeI V.C :=
      divII_straddle V.chk ix' iy' hne ha' hb' ⟨h3.trans hcd.1, hcd.2.trans h4⟩
    rw [hwhole]
    exact whole_encl (V.infLaws hi)
  · by_cases hg' : (∃ a ∈ γ x', a < 0) ∧ val x'.upper = some 0 ∧ (val y'.lower = some 0 ∨ val y'.upper = some 0)
    · exact (C52_div_partial V hV hi hx hy hg).mono fun z _ =>
        (C52_gap V hV.directed hi hg'.1 hg'.2.1 hy' hg'.2.2).mono fun z' hz' => by rw [hz']; exact subset_univ _
    · exact (C52_div_partial V hV hi hx hy hg).mono fun _ hz =>
        (C52_div_partial V hV hi (hx.mono hxx) hy' hg').mono fun _ hz' => hz.mono hz' (quot_mono hxx hyy)

/-! ## C41 -/

/-- With exact arithmetic the result is the exact image. -/
theorem C41_add (hk : V.kind = .exact) (hE : ExactBase T) (hm : ModeFree T V.lib) (hx : (γ x).Nonempty)
    (hy : (γ y).Nonempty) (bx : Bornology.IsBounded (γ x)) (hb : Bornology.IsBounded (γ y)) :
    V.Returns (addII V.P x y) fun z => γ z = {q | ∃ a ∈ γ x, ∃ b ∈ γ y, a + b = q} := by
  obtain ⟨_, _, ix⟩ := has_of_nonempty hx
  obtain ⟨_, _, iy⟩ := has_of_nonempty hy
  have hV : V.Ok Eq Eq := .inr ⟨hk, hE, hm⟩
  refine V.run hV (fun _ h => addII_sim h x y) ((addII_post (hV.dir du_eq).op V.chk ix iy).mono fun z hz => ?_)
  exact hz.exact2 ix iy bx hb (fun p => p.1 + p.2) (by fun_prop)

theorem C41_sub (hk : V.kind = .exact) (hE : ExactBase T) (hm : ModeFree T V.lib) (hx : (γ x).Nonempty)
    (hy : (γ y).Nonempty) (bx : Bornology.IsBounded (γ x)) (hb : Bornology.IsBounded (γ y)) :
    V.Returns (subII V.P x y) fun z => γ z = {q | ∃ a ∈ γ x, ∃ b ∈ γ y, a - b = q} := by
  obtain ⟨_, _, ix⟩ := has_of_nonempty hx
  obtain ⟨_, _, iy⟩ := has_of_nonempty hy
  have hV : V.Ok Eq Eq := .inr ⟨hk, hE, hm⟩
  refine V.run hV (fun _ h => subII_sim h x y) ((subII_post (hV.dir du_eq).op V.chk ix iy).mono fun z hz => ?_)
  exact hz.exact2 ix iy bx hb (fun p => p.1 - p.2) (by fun_prop)

theorem C41_mul (hk : V.kind = .exact) (hE : ExactBase T) (hm : ModeFree T V.lib) (hx : (γ x).Nonempty)
    (hy : (γ y).Nonempty) (bx : Bornology.IsBounded (γ x)) (hb : Bornology.IsBounded (γ y)) :
    V.Returns (mulII V.P x y) fun z => γ z = {q | ∃ a ∈ γ x, ∃ b ∈ γ y, a * b = q} := by
  obtain ⟨_, _, ix⟩ := has_of_nonempty hx
  obtain ⟨_, _, iy⟩ := has_of_nonempty hy
  have hV : V.Ok Eq Eq := .inr ⟨hk, hE, hm⟩
  refine V.run hV (fun _ h => mulII_sim h x y) ((mulII_post (hV.dir du_eq).op V.chk ix iy).mono fun z hz => ?_)
  exact hz.exact2 ix iy bx hb (fun p => p.1 * p.2) (by fun_prop)

theorem C41_div (hk : V.kind = .exact) (hE : ExactBase T) (hm : ModeFree T V.lib) (hx : (γ x).Nonempty)
    (hy : (γ y).Nonempty) (bx : Bornology.IsBounded (γ x)) (hb : Bornology.IsBounded (γ y)) (h0 : 0 ∉ γ y) :
    V.Returns (divII V.P x y) fun z => γ z = {q | ∃ a ∈ γ x, ∃ b ∈ γ y, a / b = q} := by
  obtain ⟨_, _, ix⟩ := has_of_nonempty hx
  obtain ⟨_, _, iy⟩ := has_of_nonempty hy
  have hV : V.Ok Eq Eq := .inr ⟨hk, hE, hm⟩
  refine V.run hV (fun _ h => divII_sim h x y) ((divII_nz_post (hV.div du_eq) V.chk ix iy h0).mono fun z hz => ?_)
  have hq : quot (γ x) (γ y) = image2 (· / ·) (γ x) (γ y) := by
    ext q; constructor
    · rintro ⟨a, ha, b, hb, _, rfl⟩; exact ⟨a, ha, b, hb, rfl⟩
    · rintro ⟨a, ha, b, hb, rfl⟩; exact ⟨a, ha, b, hb, fun h => h0 (h ▸ hb), rfl⟩
  rw [hq] at hz
  refine hz.exact2 ix iy bx hb (fun p => p.1 / p.2) ?_
  exact continuousOn_fst.div continuousOn_snd fun p hp h => h0 (h ▸ hp.2)

/-! ## C49 -/

theorem C49_add_comm (hV : V.Tight) (hx : (γ x).Nonempty) (hy : (γ y).Nonempty) :
    V.Returns (addII V.P x y) fun z => V.Returns (addII V.P y x) fun z' => γ z = γ z' := by
  refine (C12_add V hV hx hy).mono fun _ hz => (C12_add V hV hy hx).mono fun _ hz' => hz.eq ?_
  convert hz' using 1
  exact image2_comm fun a b => add_comm a b

theorem C49_mul_comm (hV : V.Tight) (hx : (γ x).Nonempty) (hy : (γ y).Nonempty) :
    V.Returns (mulII V.P x y) fun z => V.Returns (mulII V.P y x) fun z' => γ z = γ z' := by
  refine (C12_mul V hV hx hy).mono fun _ hz => (C12_mul V hV hy hx).mono fun _ hz' => hz.eq ?_
  convert hz' using 1
  exact image2_comm fun a b => mul_comm a b

/-! ## C51: the overloads taking a number agree with the singleton interval -/

theorem single_nonempty (ht : val t = some (r : EReal)) : (γ (⟨t, t⟩ : Itv T)).Nonempty := by
  rw [gamma_single ht]; exact singleton_nonempty r

theorem C51_add (hV : V.Tight) (ht : val t = some (r : EReal)) (hy : (γ y).Nonempty) :
    V.Returns (addTI V.P t y) fun z => V.Returns (addII V.P ⟨t, t⟩ y) fun z' => γ z = γ z' := by
  refine (C12_add_num V hV ht hy).mono fun _ hz => (C12_add V hV (single_nonempty ht) hy).mono fun _ hz' => hz.eq ?_
  rwa [gamma_single ht] at hz'

theorem C51_add' (hV : V.Tight) (ht : val t = some (r : EReal)) (hy : (γ y).Nonempty) :
    V.Returns (addIT V.P y t) fun z => V.Returns (addII V.P y ⟨t, t⟩) fun z' => γ z = γ z' := by
  refine (C12_add_num' V hV ht hy).mono fun _ hz => (C12_add V hV hy (single_nonempty ht)).mono fun _ hz' => hz.eq ?_
  rwa [gamma_single ht] at hz'

theorem C51_sub (hV : V.Tight) (ht : val t = some (r : EReal)) (hy : (γ y).Nonempty) :
    V.Returns (subTI V.P t y) fun z => V.Returns (subII V.P ⟨t, t⟩ y) fun z' => γ z = γ z' := by
  refine (C12_sub_num V hV ht hy).mono fun _ hz => (C12_sub V hV (single_nonempty ht) hy).mono fun _ hz' => hz.eq ?_
  rwa [gamma_single ht] at hz'

theorem C51_sub' (hV : V.Tight) (ht : val t = some (r : EReal)) (hy : (γ y).Nonempty) :
    V.Returns (subIT V.P y t) fun z => V.Returns (subII V.P y ⟨t, t⟩) fun z' => γ z = γ z' := by
  refine (C12_sub_num' V hV ht hy).mono fun _ hz => (C12_sub V hV hy (single_nonempty ht)).mono fun _ hz' => hz.eq ?_
  rwa [gamma_single ht] at hz'

theorem C51_mul (hV : V.Tight) (ht : val t = some (r : EReal)) (hy : (γ y).Nonempty) :
    V.Returns (mulTI V.P t y) fun z => V.Returns (mulII V.P ⟨t, t⟩ y) fun z' => γ z = γ z' := by
  refine (C12_mul_num V hV ht hy).mono fun _ hz => (C12_mul V hV (single_nonempty ht) hy).mono fun _ hz' => hz.eq ?_
  rwa [gamma_single ht] at hz'

theorem C51_mul' (hV : V.Tight) (ht : val t = some (r : EReal)) (hy : (γ y).Nonempty) :
    V.Returns (mulIT V.P y t) fun z => V.Returns (mulII V.P y ⟨t, t⟩) fun z' => γ z = γ z' := by
  refine (C12_mul_num' V hV ht hy).mono fun _ hz => (C12_mul V hV hy (single_nonempty ht)).mono fun _ hz' => hz.eq ?_
  rwa [gamma_single ht] at hz'

/-- Division of a number: base types with infinities, or no zero in the divisor. -/
theorem C51_div (hV : V.Tight) (hi : InfBase T ∨ 0 ∉ γ y) (ht : val t = some (r : EReal)) (hy : ∃ b ∈ γ y, b ≠ 0) :
    V.Returns (divTI V.P t y) fun z => V.Returns (divII V.P ⟨t, t⟩ y) fun z' => γ z = γ z' := by
  have key : ∀ {z z' : Itv T}, SmallestEnclosure z (quot {r} (γ y)) → SmallestEnclosure z' (quot (γ (⟨t, t⟩ : Itv T)) (γ y)) →
      γ z = γ z' := by
    intro z z' h h'; rw [gamma_single ht] at h'; exact h.eq h'
  rcases hi with hi | hi
  · refine (C52_div_num V hV hi ht hy).mono fun _ hz =>
      (C52_div_partial V hV hi (single_nonempty ht) hy ?_).mono fun _ hz' => key hz hz'
    rintro ⟨⟨a, ha, h1⟩, h2, -⟩
    rw [gamma_single ht] at ha
    change val t = _ at h2
    rw [ht] at h2
    have : (r : EReal) = 0 := by injection h2
    have h3 : r = 0 := by exact_mod_cast this
    rw [mem_singleton_iff.1 ha, h3] at h1
    exact lt_irrefl _ h1
  · obtain ⟨b, hb, -⟩ := hy
    exact (C12_div_num V hV ht ⟨b, hb⟩ hi).mono fun _ hz =>
      (C12_div V hV (single_nonempty ht) ⟨b, hb⟩ hi).mono fun _ hz' => key hz hz'

theorem C51_div' (hV : V.Tight) (hx : (γ x).Nonempty) (ht : val t = some (r : EReal)) (h0 : r ≠ 0) :
    V.Returns (divIT V.P x t) fun z => V.Returns (divII V.P x ⟨t, t⟩) fun z' => γ z = γ z' := by
  refine (C12_div_num' V hV hx ht h0).mono fun _ hz =>
    (C12_div V hV hx (single_nonempty ht) ?_).mono fun _ hz' => hz.eq ?_
  · rw [gamma_single ht]; exact fun h => h0 h.symm
  · rwa [gamma_single ht] at hz'

/-! ## C52: the exception is real -/

/-- `[-1, 0] / [0, 1]`, `interval<double>` with the default policies: the result is not the smallest enclosure (it is the
whole line, while all quotients are at most zero). -/
theorem C52_not_smallest : ¬ dbl.Returns (divII dbl.P (litI (-1) 0) (litI 0 1)) fun z =>
    SmallestEnclosure z {q | ∃ a ∈ γ (litI (-1) 0 : Itv (Fl Fmt.double)),
      ∃ b ∈ γ (litI 0 1 : Itv (Fl Fmt.double)), b ≠ 0 ∧ q = a / b} := by
  intro h
  have hg := C52_gap dbl dbl_directed fl_inf (x := litI (-1) 0) (y := litI 0 1)
    ⟨-1, in_lit, by norm_num⟩ val_zero ⟨1, in_lit, by norm_num⟩ (.inl val_zero)
  let s : dbl.State := ⟨(⟨.near, ()⟩ : FEnv Unit), fun _ => true⟩
  obtain ⟨z, h1, -, h2⟩ := h s trivial
  obtain ⟨z', h1', -, h2'⟩ := hg s trivial
  rw [h1] at h1'; cases h1'
  have h3 := (h2.2 ⟨.inf true, .zero false⟩ ?_).1
  · rw [h2'] at h3
    obtain ⟨l, u, k1, k2, k3, k4⟩ := h3 (mem_univ (1 : ℝ))
    rw [show val (⟨.inf true, .zero false⟩ : Itv (Fl Fmt.double)).upper = some 0 from rfl] at k2
    cases k2
    have : (1 : ℝ) ≤ 0 := by exact_mod_cast k4
    linarith
  · rintro q ⟨a, ha, b, hb, h0, rfl⟩
    rw [mem_litI (by decide) (by decide)] at ha hb
    refine ⟨⊥, 0, rfl, rfl, bot_le, ?_⟩
    have : a / b ≤ 0 := div_nonpos_of_nonpos_of_nonneg (by simpa using ha.2) (by simpa using hb.1)
    exact_mod_cast this

/-! ## Witnesses -/

example : dbl.Returns (mulII dbl.P (litI (-1) 2) (litI (-3) 5)) fun z =>
    SmallestEnclosure z {q | ∃ a ∈ γ (litI (-1) 2 : Itv (Fl Fmt.double)),
      ∃ b ∈ γ (litI (-3) 5 : Itv (Fl Fmt.double)), a * b = q} := C12_mul dbl dbl_tight ne_lit ne_lit
example : flt.Returns (divII flt.P (litI 1 2) (litI 3 5)) fun z =>
    SmallestEnclosure z {q | ∃ a ∈ γ (litI 1 2 : Itv (Fl Fmt.single)),
      ∃ b ∈ γ (litI 3 5 : Itv (Fl Fmt.single)), b ≠ 0 ∧ q = a / b} :=
  C12_div flt flt_tight ne_lit ne_lit (by rw [mem_litI (by decide) (by decide)]; norm_num)
/-- `[1, 2] / [0, 5]` -/
example : dbl.Returns (divII dbl.P (litI 1 2) (litI 0 5)) fun z =>
    SmallestEnclosure z {q | ∃ a ∈ γ (litI 1 2 : Itv (Fl Fmt.double)),
      ∃ b ∈ γ (litI 0 5 : Itv (Fl Fmt.double)), b ≠ 0 ∧ q = a / b} := by
  refine C52_div_partial dbl dbl_tight fl_inf ne_lit ⟨1, in_lit, by norm_num⟩ ?_
  rintro ⟨⟨a, ha, h⟩, -⟩
  rw [mem_litI (by decide) (by decide)] at ha
  have := ha.1; push_cast at this; linarith
/-- `[1, 1] / [2, 3]` is in `[0, 1] / [1, 5]`. -/
example : dbl.Returns (divII dbl.P (litI 1 1) (litI 2 3)) fun z =>
    dbl.Returns (divII dbl.P (litI 0 1) (litI 1 5)) fun z' => γ z ⊆ γ z' := by
  refine C13_div dbl dbl_tight fl_inf ne_lit ⟨2, in_lit, by norm_num⟩ ?_ ?_
  all_goals
    intro r hr
    rw [mem_litI (by decide) (by decide)] at hr ⊢
    obtain ⟨h1, h2⟩ := hr
    push_cast at *
    constructor <;> linarith
example : ratEnv.Returns (mulII ratEnv.P (litI 1 2) (litI (-3) 5)) fun z =>
    γ z = {q | ∃ a ∈ γ (litI 1 2 : Itv ℚ), ∃ b ∈ γ (litI (-3) 5 : Itv ℚ), a * b = q} :=
  C41_mul ratEnv rfl rat_exact (rat_modeFree _ fun _ _ _ _ => rfl) ne_lit ne_lit (rat_bounded _) (rat_bounded _)
example : ratEnv.Returns (divII ratEnv.P (litI 1 2) (litI 3 5)) fun z =>
    γ z = {q | ∃ a ∈ γ (litI 1 2 : Itv ℚ), ∃ b ∈ γ (litI 3 5 : Itv ℚ), a / b = q} :=
  C41_div ratEnv rfl rat_exact (rat_modeFree _ fun _ _ _ _ => rfl) ne_lit ne_lit (rat_bounded _) (rat_bounded _)
    (by rw [mem_litI (by decide) (by decide)]; norm_num)
example : flt.Returns (mulII flt.P (litI 1 2) (litI (-3) 5)) fun z =>
    flt.Returns (mulII flt.P (litI (-3) 5) (litI 1 2)) fun z' => γ z = γ z' := C49_mul_comm flt flt_tight ne_lit ne_lit
example : dbl.Returns (divTI dbl.P (Num.lit 3) (litI (-1) 5)) fun z =>
    dbl.Returns (divII dbl.P ⟨Num.lit 3, Num.lit 3⟩ (litI (-1) 5)) fun z' => γ z = γ z' :=
  C51_div dbl dbl_tight (.inl fl_inf) (NumLaws.lit 3 (by decide)) ⟨1, in_lit, by norm_num⟩

end BI
