import Verif.Props.Algebra
/-!
# C75: bounds and widths
-/

set_option linter.unusedSectionVars false

namespace BI
open Set

variable {T : Type} [Num T] [Val T] [NumLaws T] (V : Env T) {x y z : Itv T} {t : T} {e d : EReal}

/-- `d` is the least upper bound of the differences of the elements of `S`. -/
def Diam (S : Set ℝ) (d : EReal) : Prop := IsLUB {q : EReal | ∃ a ∈ S, ∃ b ∈ S, ((b - a : ℝ) : EReal) = q} d

/-- `width` returns, from every state, one and the same number, of value `e`. -/
def Env.WidthIs (V : Env T) (x : Itv T) (e : EReal) : Prop := ∃ w, V.Returns (width V.P x) (· = w) ∧ val w = some e

/-! ## The bounds -/

/-- The functions `lower` and `upper` return the greatest lower and the least upper bound of the set. -/
theorem C75_bounds (hx : (γ x).Nonempty) :
    (∃ l a, checkedLower V.C x = .ok l ∧ val l = some a ∧ IsGLB {q : EReal | ∃ r ∈ γ x, (r : EReal) = q} a) ∧
    (∃ u b, checkedUpper V.C x = .ok u ∧ val u = some b ∧ IsLUB {q : EReal | ∃ r ∈ γ x, (r : EReal) = q} b) := by
  obtain ⟨a, b, ix⟩ := has_of_nonempty hx
  have h1 : IsGLB (E (γ x)) a := isGLB_of (fun r hr => ix.lb hr) ix.lower_cl
  have h2 : IsLUB (E (γ x)) b := isLUB_of (fun r hr => ix.ub hr) ix.upper_cl
  refine ⟨⟨x.lower, a, ?_, ix.lo, h1⟩, ⟨x.upper, b, ?_, ix.up, h2⟩⟩
  · unfold checkedLower; rw [ix.test V.chk]; rfl
  · unfold checkedUpper; rw [ix.test V.chk]; rfl

/-- The interval can be built again from them. -/
theorem C75_rebuild (hx : (γ x).Nonempty) :
    (do let l ← checkedLower V.C x; let u ← checkedUpper V.C x; ctorTT V.C l u) = .ok x ∧
    (do let l ← checkedLower V.C x; let u ← checkedUpper V.C x; hullTT V.C l u) = .ok x := by
  obtain ⟨a, b, ix⟩ := has_of_nonempty hx
  have h1 : checkedLower V.C x = .ok x.lower := by unfold checkedLower; rw [ix.test V.chk]; rfl
  have h2 : checkedUpper V.C x = .ok x.upper := by unfold checkedUpper; rw [ix.test V.chk]; rfl
  rw [h1, h2]
  have hle := (NumLaws.le_iff x.lower x.upper).2 ⟨a, b, ix.lo, ix.up, ix.le⟩
  constructor
  · change ctorTT V.C x.lower x.upper = _
    unfold ctorTT
    rw [V.chk.isNan _ _ ix.lo, V.chk.isNan _ _ ix.up, hle]; rfl
  · change hullTT V.C x.lower x.upper = _
    unfold hullTT
    rw [V.chk.isNan _ _ ix.lo, V.chk.isNan _ _ ix.up, hle]; rfl

/-! ## The width -/

variable {V} in
theorem Has.diam {a b : EReal} (ix : Has x a b) : Diam (γ x) (b - a) := by
  have h1 : IsGLB (E (γ x)) a := isGLB_of (fun r hr => ix.lb hr) ix.lower_cl
  have h2 : IsLUB (E (γ x)) b := isLUB_of (fun r hr => ix.ub hr) ix.upper_cl
  constructor
  · rintro _ ⟨p, hp, q, hq, rfl⟩
    rw [EReal.coe_sub]
    exact EReal.sub_le_sub (ix.ub hq) (ix.lb hp)
  · intro m hm
    induction m with
    | top => exact le_top
    | bot =>
      obtain ⟨p, hp⟩ := ix.nonempty
      exact absurd (le_bot_iff.1 (hm ⟨p, hp, p, hp, rfl⟩)) (EReal.coe_ne_bot _)
    | coe m =>
      have hle : ∀ p ∈ γ x, ∀ q ∈ γ x, q - p ≤ m := fun p hp q hq => EReal.coe_le_coe_iff.1 (hm ⟨p, hp, q, hq, rfl⟩)
      have hb : ∀ p ∈ γ x, b ≤ ((m + p : ℝ) : EReal) := fun p hp => h2.2 (by
        rintro _ ⟨q, hq, rfl⟩; exact EReal.coe_le_coe_iff.2 (by linarith [hle p hp q hq]))
      obtain ⟨p0, hp0⟩ := ix.nonempty
      induction b with
      | bot => exact absurd rfl ix.ne_bot
      | top => exact absurd (top_le_iff.1 (hb p0 hp0)) (EReal.coe_ne_top _)
      | coe β =>
        have ha : ((β - m : ℝ) : EReal) ≤ a := h1.2 (by
          rintro _ ⟨p, hp, rfl⟩
          have := EReal.coe_le_coe_iff.1 (hb p hp)
          exact EReal.coe_le_coe_iff.2 (by linarith))
        induction a with
        | top => exact absurd rfl ix.ne_top
        | bot => exact absurd (le_bot_iff.1 ha) (EReal.coe_ne_bot _)
        | coe α =>
          have := EReal.coe_le_coe_iff.1 ha
          rw [← EReal.coe_sub]
          exact EReal.coe_le_coe_iff.2 (by linarith)

theorem width_ex (hV : V.Tight) {a b : EReal} (ix : Has x a b) : ∃ e, V.WidthIs x e ∧ IsRoundUp T e (b - a) := by
  have hp : Post True (width V.pp x) fun w => ∃ e, val w = some e ∧ IsRoundUp T e (b - a) := by
    unfold width
    rw [pure_chk, res_if_false (ix.test V.chk), pure_scope, pure_rnd]
    exact (hV.dir du_tight).subUp _ _ _ _ ix.up ix.lo ⟨.inr ix.ne_top, .inl ix.ne_bot⟩
  obtain ⟨w, hw, e, he, h⟩ := hp.total
  exact ⟨e, ⟨w, V.run hV (fun _ h => width_sim h x) (Post.of_eq hw rfl), he⟩, h⟩

/-- The width is the diameter of the set, rounded upwards. -/
theorem C75_width (hV : V.Tight) (hx : (γ x).Nonempty) (hd : Diam (γ x) d) : ∃ e, V.WidthIs x e ∧ IsRoundUp T e d := by
  obtain ⟨a, b, ix⟩ := has_of_nonempty hx
  rw [hd.unique ix.diam]
  exact width_ex V hV ix

theorem IsRoundUp.mono {e e' d d' : EReal} (h : IsRoundUp T e d) (h' : IsRoundUp T e' d') (hd : d ≤ d') : e ≤ e' :=
  h.2.2 _ h'.1 (hd.trans h'.2.1)

theorem diam_mono {S S' : Set ℝ} {d d' : EReal} (h : Diam S d) (h' : Diam S' d') (hs : S ⊆ S') : d ≤ d' := h.2 (by
  rintro _ ⟨p, hp, q, hq, rfl⟩; exact h'.1 ⟨p, hs hp, q, hs hq, rfl⟩)

/-- Parts are not wider. -/
theorem C75_mono (hV : V.Tight) (hx : (γ x).Nonempty) (hxy : γ x ⊆ γ y) : ∃ e d, V.WidthIs x e ∧ V.WidthIs y d ∧ e ≤ d := by
  obtain ⟨a, b, ix⟩ := has_of_nonempty hx
  obtain ⟨a', b', iy⟩ := has_of_nonempty (hx.mono hxy)
  obtain ⟨e, h1, h2⟩ := width_ex V hV ix
  obtain ⟨d, h3, h4⟩ := width_ex V hV iy
  exact ⟨e, d, h1, h3, h2.mono h4 (diam_mono ix.diam iy.diam hxy)⟩

/-- Only single points have width zero, and only unbounded intervals and those whose diameter is above the range an infinite width. -/
theorem C75_zero (hV : V.Tight) (hx : (γ x).Nonempty) :
    ∃ e, V.WidthIs x e ∧ 0 ≤ e ∧ (e = 0 ↔ ∃ r, γ x = {r}) ∧ (¬ Bornology.IsBounded (γ x) → e = ⊤) := by
  obtain ⟨a, b, ix⟩ := has_of_nonempty hx
  obtain ⟨e, h1, h2⟩ := width_ex V hV ix
  have h0 : 0 ≤ e := by
    obtain ⟨p, hp⟩ := hx
    refine le_trans ?_ h2.2.1
    have := ix.diam.1 ⟨p, hp, p, hp, rfl⟩
    rwa [sub_self] at this
  refine ⟨e, h1, h0, ⟨?_, ?_⟩, ?_⟩
  · rintro rfl
    obtain ⟨p, hp⟩ := hx
    refine ⟨p, Set.eq_singleton_iff_unique_mem.2 ⟨hp, fun q hq => ?_⟩⟩
    have k1 := (ix.diam.1 ⟨p, hp, q, hq, rfl⟩).trans h2.2.1
    have k2 := (ix.diam.1 ⟨q, hq, p, hp, rfl⟩).trans h2.2.1
    have k1 := EReal.coe_le_coe_iff.1 k1
    have k2 := EReal.coe_le_coe_iff.1 k2
    linarith
  · rintro ⟨r, hr⟩
    refine le_antisymm (h2.2.2 0 ⟨Num.lit 0, val_zero⟩ (ix.diam.2 ?_)) h0
    rintro _ ⟨p, hp, q, hq, rfl⟩
    rw [hr] at hp hq
    rw [mem_singleton_iff.1 hp, mem_singleton_iff.1 hq, sub_self]; rfl
  · intro hb
    refine top_le_iff.1 (le_trans (le_of_eq ?_) h2.2.1)
    by_contra h
    apply hb
    induction a with
    | top => exact absurd rfl ix.ne_top
    | bot => exact absurd (EReal.sub_bot ix.ne_bot).symm h
    | coe α =>
      induction b with
      | bot => exact absurd rfl ix.ne_bot
      | top => exact absurd (EReal.top_sub_coe α).symm h
      | coe β => rw [ix.gamma_Icc]; exact Metric.isBounded_Icc α β

/-- Negation keeps the width. -/
theorem C75_neg (hV : V.Tight) (hn : ∀ a : T, Num.neg a ≠ none) (hx : (γ x).Nonempty) :
    ∃ y e, negI V.C x = .ok y ∧ V.WidthIs x e ∧ V.WidthIs y e := by
  obtain ⟨y, hy, ey⟩ := C02_neg V hn hx
  have hy' : (γ y).Nonempty := by obtain ⟨a, ha⟩ := hx; rw [ey]; exact ⟨-a, a, ha, rfl⟩
  obtain ⟨a, b, ix⟩ := has_of_nonempty hx
  obtain ⟨a', b', iy⟩ := has_of_nonempty hy'
  obtain ⟨e, h1, h2⟩ := width_ex V hV ix
  obtain ⟨d, h3, h4⟩ := width_ex V hV iy
  have hd : b - a = b' - a' := by
    refine ix.diam.unique ?_
    have := iy.diam
    unfold Diam at this
    convert this using 2
    rw [ey]
    ext q; constructor
    · rintro ⟨p, hp, r, hr, rfl⟩; exact ⟨-r, ⟨r, hr, rfl⟩, -p, ⟨p, hp, rfl⟩, by ring_nf⟩
    · rintro ⟨_, ⟨p, hp, rfl⟩, _, ⟨r, hr, rfl⟩, rfl⟩; exact ⟨r, hr, p, hp, by ring_nf⟩
  have : e = d := le_antisymm (h2.mono h4 hd.le) (h4.mono h2 hd.ge)
  subst this
  exact ⟨y, e, hy, h1, h3⟩

theorem diam_add {A B C : Set ℝ} {p q r : EReal} (hA : Diam A p) (hB : Diam B q) (hC : Diam C r)
    (h : ∀ a ∈ A, ∀ a' ∈ A, ∀ b ∈ B, ∀ b' ∈ B, ∃ c ∈ C, ∃ c' ∈ C, (a' - a) + (b' - b) ≤ c' - c) : p + q ≤ r := by
  refine EReal.add_le_of_forall_lt fun p' hp' q' hq' => ?_
  obtain ⟨_, ⟨a, ha, a', ha', rfl⟩, h1⟩ := (lt_isLUB_iff hA).1 hp'
  obtain ⟨_, ⟨b, hb, b', hb', rfl⟩, h2⟩ := (lt_isLUB_iff hB).1 hq'
  obtain ⟨c, hc, c', hc', h3⟩ := h a ha a' ha' b hb b' hb'
  refine (add_le_add h1.le h2.le).trans (le_trans ?_ (hC.1 ⟨c, hc, c', hc', rfl⟩))
  rw [← EReal.coe_add]; exact EReal.coe_le_coe_iff.2 h3

theorem Diam.nonneg {S : Set ℝ} {d : EReal} (h : Diam S d) (hS : S.Nonempty) : 0 ≤ d := by
  obtain ⟨p, hp⟩ := hS
  have := h.1 ⟨p, hp, p, hp, rfl⟩
  rwa [sub_self] at this

theorem width_sum (hV : V.Tight) (hx : (γ x).Nonempty) (hy : (γ y).Nonempty) (hz : (γ z).Nonempty)
    (h : ∀ a ∈ γ x, ∀ a' ∈ γ x, ∀ b ∈ γ y, ∀ b' ∈ γ y, ∃ c ∈ γ z, ∃ c' ∈ γ z, (a' - a) + (b' - b) ≤ c' - c) :
    ∃ e d c, V.WidthIs x e ∧ V.WidthIs y d ∧ V.WidthIs z c ∧ e ≤ c ∧ d ≤ c ∧
      ∀ p q, Diam (γ x) p → Diam (γ y) q → p + q ≤ c := by
  obtain ⟨a, b, ix⟩ := has_of_nonempty hx
  obtain ⟨a', b', iy⟩ := has_of_nonempty hy
  obtain ⟨a'', b'', iz⟩ := has_of_nonempty hz
  obtain ⟨e, h1, h2⟩ := width_ex V hV ix
  obtain ⟨d, h3, h4⟩ := width_ex V hV iy
  obtain ⟨c, h5, h6⟩ := width_ex V hV iz
  have hs := diam_add ix.diam iy.diam iz.diam h
  have hx0 := ix.diam.nonneg hx
  have hy0 := iy.diam.nonneg hy
  refine ⟨e, d, c, h1, h3, h5, h2.mono h6 (le_trans ?_ hs), h4.mono h6 (le_trans ?_ hs), fun p q hp hq => ?_⟩
  · exact le_add_of_nonneg_right hy0
  · exact le_add_of_nonneg_left hx0
  · rw [hp.unique ix.diam, hq.unique iy.diam]; exact hs.trans h6.2.1

/-- The widths of a sum and of a difference are not below the sum of the diameters, nor below the width of an operand. -/
theorem C75_add (hV : V.Tight) (hx : (γ x).Nonempty) (hy : (γ y).Nonempty) :
    V.Returns (addII V.P x y) (fun z => ∃ e d c, V.WidthIs x e ∧ V.WidthIs y d ∧ V.WidthIs z c ∧ e ≤ c ∧ d ≤ c ∧
      ∀ p q, Diam (γ x) p → Diam (γ y) q → p + q ≤ c) ∧
    V.Returns (subII V.P x y) (fun z => ∃ e d c, V.WidthIs x e ∧ V.WidthIs y d ∧ V.WidthIs z c ∧ e ≤ c ∧ d ≤ c ∧
      ∀ p q, Diam (γ x) p → Diam (γ y) q → p + q ≤ c) := by
  constructor
  · refine (C12_add V hV hx hy).mono fun z hz => ?_
    refine width_sum V hV hx hy ((hx.image2 hy : {q : ℝ | ∃ a ∈ γ x, ∃ b ∈ γ y, a + b = q}.Nonempty).mono hz.1) ?_
    exact fun a ha a' ha' b hb b' hb' => ⟨a + b, hz.1 ⟨a, ha, b, hb, rfl⟩, a' + b', hz.1 ⟨a', ha', b', hb', rfl⟩, by linarith⟩
  · refine (C12_sub V hV hx hy).mono fun z hz => ?_
    refine width_sum V hV hx hy ((hx.image2 hy : {q : ℝ | ∃ a ∈ γ x, ∃ b ∈ γ y, a - b = q}.Nonempty).mono hz.1) ?_
    exact fun a ha a' ha' b hb b' hb' => ⟨a - b', hz.1 ⟨a, ha, b', hb', rfl⟩, a' - b, hz.1 ⟨a', ha', b, hb, rfl⟩, by linarith⟩

/-! ## Exact base types -/

theorem SmallestEnclosure.has {S : Set ℝ} {p q : ℝ} (hz : SmallestEnclosure z S) (hp : p ∈ S) (hq : q ∈ S) (hS : S ⊆ Icc p q)
    (rp : Representable T (p : EReal)) (rq : Representable T (q : EReal)) : Has z p q := by
  obtain ⟨tp, hp'⟩ := rp
  obtain ⟨tq, hq'⟩ := rq
  obtain ⟨l, u, iz⟩ := has_of_nonempty ⟨p, hz.1 hp⟩
  have i' : Has (⟨tp, tq⟩ : Itv T) (p : EReal) (q : EReal) :=
    ⟨hp', hq', EReal.coe_ne_top _, EReal.coe_ne_bot _, EReal.coe_le_coe_iff.2 (hS hp).2⟩
  obtain ⟨h1, h2⟩ := (hz.2 ⟨tp, tq⟩ (by rw [i'.gamma_Icc]; exact hS)).2 _ _ _ _ iz.lo iz.up hp' hq'
  have e1 : l = p := le_antisymm (iz.lb (hz.1 hp)) h1
  have e2 : u = q := le_antisymm h2 (iz.ub (hz.1 hq))
  rw [e1, e2] at iz
  exact iz

theorem width_exact (hV : V.Tight) (hE : ExactBase T) {p q : ℝ} (ix : Has x p q) : V.WidthIs x ((q - p : ℝ) : EReal) := by
  obtain ⟨e, h1, h2⟩ := width_ex V hV ix
  obtain ⟨c, -, hc⟩ := hE.sub _ _ _ _ ix.up ix.lo ⟨.inl (EReal.coe_ne_top _), .inl (EReal.coe_ne_bot _)⟩
  rw [← EReal.coe_sub] at h2 hc
  rwa [le_antisymm (h2.2.2 _ ⟨c, hc⟩ le_rfl) h2.2.1] at h1

/-- With exact arithmetic widths add up, for sums and for differences, and are multiplied by the absolute value of a factor. -/
theorem C75_exact (hV : V.Tight) (hE : ExactBase T) (hx : (γ x).Nonempty) (bx : Bornology.IsBounded (γ x)) (hy : (γ y).Nonempty)
    (bz : Bornology.IsBounded (γ y)) {r : ℝ} (ht : val t = some (r : EReal)) :
    ∃ e d : ℝ, V.WidthIs x e ∧ V.WidthIs y d ∧ Diam (γ x) e ∧ Diam (γ y) d ∧
      V.Returns (addII V.P x y) (fun z => V.WidthIs z ((e + d : ℝ) : EReal)) ∧
      V.Returns (subII V.P x y) (fun z => V.WidthIs z ((e + d : ℝ) : EReal)) ∧
      V.Returns (mulTI V.P t x) (fun z => V.WidthIs z ((|r| * e : ℝ) : EReal)) := by
  obtain ⟨a, b, ix⟩ := has_of_nonempty hx
  obtain ⟨a', b', iy⟩ := has_of_nonempty hy
  obtain ⟨a, b, rfl, rfl, hab⟩ := ix.of_bounded bx
  obtain ⟨c, d, rfl, rfl, hcd⟩ := iy.of_bounded bz
  have dx := ix.diam
  have dy := iy.diam
  rw [← EReal.coe_sub] at dx dy
  have radd : ∀ {p q : ℝ} {s t : T}, val s = some (p : EReal) → val t = some (q : EReal) → Representable T ((p + q : ℝ) : EReal) := by
    intro p q s t hs ht
    obtain ⟨c, -, hc⟩ := hE.add _ _ _ _ hs ht ⟨.inl (EReal.coe_ne_top _), .inl (EReal.coe_ne_bot _)⟩
    exact ⟨c, hc⟩
  have rsub : ∀ {p q : ℝ} {s t : T}, val s = some (p : EReal) → val t = some (q : EReal) → Representable T ((p - q : ℝ) : EReal) := by
    intro p q s t hs ht
    obtain ⟨c, -, hc⟩ := hE.sub _ _ _ _ hs ht ⟨.inl (EReal.coe_ne_top _), .inl (EReal.coe_ne_bot _)⟩
    exact ⟨c, hc⟩
  have rmul : ∀ {p q : ℝ} {s t : T}, val s = some (p : EReal) → val t = some (q : EReal) → Representable T ((p * q : ℝ) : EReal) := by
    intro p q s t hs ht
    obtain ⟨c, -, hc⟩ := hE.mul _ _ _ _ hs ht ⟨.inr ⟨EReal.coe_ne_bot _, EReal.coe_ne_top _⟩, .inr ⟨EReal.coe_ne_bot _, EReal.coe_ne_top _⟩⟩
    exact ⟨c, hc⟩
  refine ⟨b - a, d - c, width_exact V hV hE ix, width_exact V hV hE iy, dx, dy, ?_, ?_, ?_⟩
  · refine (C12_add V hV hx hy).mono fun z hz => ?_
    rw [ix.gamma_Icc, iy.gamma_Icc] at hz
    have := width_exact V hV hE (hz.has (p := a + c) (q := b + d) ⟨a, ⟨le_rfl, hab⟩, c, ⟨le_rfl, hcd⟩, rfl⟩
      ⟨b, ⟨hab, le_rfl⟩, d, ⟨hcd, le_rfl⟩, rfl⟩ (by rintro _ ⟨p, hp, q, hq, rfl⟩; exact ⟨add_le_add hp.1 hq.1, add_le_add hp.2 hq.2⟩)
      (radd ix.lo iy.lo) (radd ix.up iy.up))
    rwa [show b + d - (a + c) = b - a + (d - c) by ring] at this
  · refine (C12_sub V hV hx hy).mono fun z hz => ?_
    rw [ix.gamma_Icc, iy.gamma_Icc] at hz
    have := width_exact V hV hE (hz.has (p := a - d) (q := b - c) ⟨a, ⟨le_rfl, hab⟩, d, ⟨hcd, le_rfl⟩, rfl⟩
      ⟨b, ⟨hab, le_rfl⟩, c, ⟨le_rfl, hcd⟩, rfl⟩ (by rintro _ ⟨p, hp, q, hq, rfl⟩; exact ⟨sub_le_sub hp.1 hq.2, sub_le_sub hp.2 hq.1⟩)
      (rsub ix.lo iy.up) (rsub ix.up iy.lo))
    rwa [show b - c - (a - d) = b - a + (d - c) by ring] at this
  · refine (C12_mul_num V hV ht hx).mono fun z hz => ?_
    rw [ix.gamma_Icc] at hz
    rcases le_total 0 r with h0 | h0
    · have := width_exact V hV hE (hz.has (p := r * a) (q := r * b) ⟨r, rfl, a, ⟨le_rfl, hab⟩, rfl⟩ ⟨r, rfl, b, ⟨hab, le_rfl⟩, rfl⟩
        (by
          rintro _ ⟨_, rfl, q, hq, rfl⟩
          exact ⟨mul_le_mul_of_nonneg_left hq.1 h0, mul_le_mul_of_nonneg_left hq.2 h0⟩) (rmul ht ix.lo) (rmul ht ix.up))
      rwa [← mul_sub, ← abs_of_nonneg h0] at this
    · have := width_exact V hV hE (hz.has (p := r * b) (q := r * a) ⟨r, rfl, b, ⟨hab, le_rfl⟩, rfl⟩ ⟨r, rfl, a, ⟨le_rfl, hab⟩, rfl⟩
        (by
          rintro _ ⟨_, rfl, q, hq, rfl⟩
          exact ⟨mul_le_mul_of_nonpos_left hq.2 h0, mul_le_mul_of_nonpos_left hq.1 h0⟩) (rmul ht ix.up) (rmul ht ix.lo))
      rwa [show r * a - r * b = |r| * (b - a) by rw [abs_of_nonpos h0]; ring] at this

/-! ## Instances -/

example := C75_bounds dbl (x := litI (-1) 2) ne_lit
example := C75_rebuild dbl (x := litI (-1) 2) ne_lit
example := C75_zero dbl dbl_tight (x := litI (-1) 2) ne_lit
example : ∃ e, dbl.WidthIs (litI (-1) 2) e ∧ IsRoundUp (Fl Fmt.double) e (((2 : ℤ) : ℝ) - (((-1 : ℤ) : ℝ) : EReal)) :=
  C75_width dbl dbl_tight ne_lit (Has.diam ⟨NumLaws.lit (T := Fl Fmt.double) (-1) (by decide), NumLaws.lit (T := Fl Fmt.double) 2 (by decide),
    EReal.coe_ne_top _, EReal.coe_ne_bot _, EReal.coe_le_coe_iff.2 (by norm_num)⟩)
example := C75_zero flt flt_tight (x := litI 3 3) ne_lit
example := C75_mono dbl dbl_tight (x := litI 0 1) (y := litI 0 1) ne_lit subset_rfl
example := C75_neg dbl dbl_tight fl_neg (x := litI (-1) 2) ne_lit
example := C75_add dbl dbl_tight (x := litI (-1) 2) (y := litI 3 5) ne_lit ne_lit
example := C75_exact ratEnv ratEnv_tight rat_exact (x := litI (-1) 2) (y := litI 3 5) ne_lit (rat_bounded _) ne_lit (rat_bounded _)
  (t := Num.lit (-3)) (NumLaws.lit (T := ℚ) (-3) (by decide))

end BI
