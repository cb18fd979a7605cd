import Verif.Props.Sharp
import Verif.Props.Utility
import Verif.Props.Empty
import Verif.Proofs.Conv
/-!
# C60, C61, C62: the norm, subdistributivity, the lattice of intervals
-/

set_option linter.unusedSectionVars false

namespace BI
open Set

variable {T : Type} [Num T] [Val T] [NumLaws T] (V : Env T) {x y z x' y' : Itv T} {w v : T} {e d : EReal}

/-! ## C60: `norm` is a norm -/

/-- The number `norm` returns has the value `e`. -/
def Env.NormIs (V : Env T) (x : Itv T) (e : EReal) : Prop := ∃ w, norm V.C x = .ok w ∧ val w = some e

theorem norm_lub (hn : ∀ a : T, Num.neg a ≠ none) (hx : (γ x).Nonempty) (h : V.NormIs x e) :
    IsLUB {q : EReal | ∃ a ∈ γ x, ((|a| : ℝ) : EReal) = q} e := by
  obtain ⟨w, h1, h2⟩ := h
  obtain ⟨w', e', h3, h4, h5, -⟩ := C28_norm V hn hx
  rw [h1] at h3
  cases h3
  rw [h2] at h4
  cases h4
  exact h5

theorem norm_ex (hn : ∀ a : T, Num.neg a ≠ none) (hx : (γ x).Nonempty) : ∃ e, V.NormIs x e := by
  obtain ⟨w, e, h1, h2, -⟩ := C28_norm V hn hx
  exact ⟨e, w, h1, h2⟩

theorem norm_nonneg (hn : ∀ a : T, Num.neg a ≠ none) (hx : (γ x).Nonempty) (h : V.NormIs x e) : 0 ≤ e := by
  obtain ⟨a, ha⟩ := hx
  exact le_trans (by exact_mod_cast abs_nonneg a) ((norm_lub V hn ⟨a, ha⟩ h).1 ⟨a, ha, rfl⟩)

/-- It is zero for the interval `{0}` only. -/
theorem C60_zero (hn : ∀ a : T, Num.neg a ≠ none) (hx : (γ x).Nonempty) (h : V.NormIs x e) : e = 0 ↔ γ x = {0} := by
  have hl := norm_lub V hn hx h
  constructor
  · rintro rfl
    have h0 : ∀ a ∈ γ x, a = 0 := fun a ha => by
      have := hl.1 ⟨a, ha, rfl⟩
      exact abs_eq_zero.1 (le_antisymm (by exact_mod_cast this) (abs_nonneg a))
    obtain ⟨a, ha⟩ := hx
    ext b
    exact ⟨fun hb => h0 b hb, fun hb => by rw [mem_singleton_iff] at hb; rw [hb, ← h0 a ha]; exact ha⟩
  · intro h0
    refine le_antisymm (hl.2 ?_) (norm_nonneg V hn hx h)
    rintro _ ⟨a, ha, rfl⟩
    rw [h0, mem_singleton_iff] at ha
    rw [ha]; simp

/-- `norm(-x)` is `norm(x)`. -/
theorem C60_neg (hn : ∀ a : T, Num.neg a ≠ none) (hx : (γ x).Nonempty) (h : V.NormIs x e) :
    ∃ y, negI V.C x = .ok y ∧ V.NormIs y e := by
  obtain ⟨y, hy, ey⟩ := C02_neg V hn hx
  have hy' : (γ y).Nonempty := by obtain ⟨a, ha⟩ := hx; rw [ey]; exact ⟨-a, a, ha, rfl⟩
  obtain ⟨d, hd⟩ := norm_ex V hn hy'
  have : {q : EReal | ∃ a ∈ γ y, ((|a| : ℝ) : EReal) = q} = {q : EReal | ∃ a ∈ γ x, ((|a| : ℝ) : EReal) = q} := by
    rw [ey]; ext q; constructor
    · rintro ⟨_, ⟨a, ha, rfl⟩, rfl⟩; exact ⟨a, ha, by rw [abs_neg]⟩
    · rintro ⟨a, ha, rfl⟩; exact ⟨-a, ⟨a, ha, rfl⟩, by rw [abs_neg]⟩
  have h1 := norm_lub V hn hy' hd
  rw [this] at h1
  rw [(norm_lub V hn hx h).unique h1]
  exact ⟨y, hy, hd⟩

/-- A larger interval has a larger norm. -/
theorem C60_mono (hn : ∀ a : T, Num.neg a ≠ none) (hx : (γ x).Nonempty) (hxy : γ x ⊆ γ y) (h : V.NormIs x e)
    (h' : V.NormIs y d) : e ≤ d := by
  refine (norm_lub V hn hx h).2 ?_
  rintro _ ⟨a, ha, rfl⟩
  exact (norm_lub V hn (hx.mono hxy) h').1 ⟨a, hxy ha, rfl⟩

/-- The smallest enclosure of a set does not go beyond a bound that the absolute values in the set respect. -/
theorem norm_le_of (hn : ∀ a : T, Num.neg a ≠ none) {S : Set ℝ} (hS : S.Nonempty) (hz : SmallestEnclosure z S) (h : V.NormIs z e)
    {r : EReal} (hr : Representable T r) (hb : ∀ a ∈ S, ((|a| : ℝ) : EReal) ≤ r) : e ≤ r := by
  obtain ⟨t, ht⟩ := hr
  obtain ⟨t', ht', vt'⟩ := neg_ok hn ht
  obtain ⟨s, hs⟩ := hS
  have hsub : S ⊆ γ (⟨t', t⟩ : Itv T) := fun a ha => by
    refine ⟨-r, r, vt', ht, ?_, le_trans (by exact_mod_cast le_abs_self a) (hb a ha)⟩
    rw [EReal.neg_le, ← EReal.coe_neg]
    exact le_trans (by exact_mod_cast neg_le_abs a) (hb a ha)
  have h1 := (hz.2 _ hsub).1
  refine (norm_lub V hn ⟨s, hz.1 hs⟩ h).2 ?_
  rintro _ ⟨a, ha, rfl⟩
  obtain ⟨l, u, hl, hu, h2, h3⟩ := h1 ha
  rw [vt'] at hl; cases hl
  rw [ht] at hu; cases hu
  rcases abs_choice a with k | k
  · rw [k]; exact h3
  · rw [k, EReal.coe_neg, EReal.neg_le]; exact h2

/-- The triangle inequality, against the sum rounded upwards: `norm(x + y)` is not above any number of the base type that
is not below `norm(x) + norm(y)`. -/
theorem C60_triangle_partial (hV : V.Tight) (hn : ∀ a : T, Num.neg a ≠ none) (hx : (γ x).Nonempty) (hy : (γ y).Nonempty)
    (h : V.NormIs x e) (h' : V.NormIs y d) :
    V.Returns (addII V.P x y) fun z => ∃ c, V.NormIs z c ∧ ∀ r, Representable T r → e + d ≤ r → c ≤ r := by
  refine (C12_add V hV hx hy).mono fun z hz => ?_
  have hS : {q : ℝ | ∃ a ∈ γ x, ∃ b ∈ γ y, a + b = q}.Nonempty := hx.image2 hy
  obtain ⟨c, hc⟩ := norm_ex V hn (hS.mono hz.1)
  refine ⟨c, hc, fun r hr hle => norm_le_of V hn hS hz hc hr ?_⟩
  rintro _ ⟨a, ha, b, hb, rfl⟩
  have h1 := (norm_lub V hn hx h).1 ⟨a, ha, rfl⟩
  have h2 := (norm_lub V hn hy h').1 ⟨b, hb, rfl⟩
  refine le_trans ?_ ((add_le_add h1 h2).trans hle)
  exact_mod_cast abs_add_le a b

/-- `norm(x * y)` is the product of the norms, rounded upwards. -/
theorem C60_mul (hV : V.Tight) (hn : ∀ a : T, Num.neg a ≠ none) (hx : (γ x).Nonempty) (hy : (γ y).Nonempty)
    (h : V.NormIs x e) (h' : V.NormIs y d) :
    V.Returns (mulII V.P x y) fun z => ∃ c, V.NormIs z c ∧ IsRoundUp T c (e * d) := by
  refine (C12_mul V hV hx hy).mono fun z hz => ?_
  have hS : {q : ℝ | ∃ a ∈ γ x, ∃ b ∈ γ y, a * b = q}.Nonempty := hx.image2 hy
  obtain ⟨c, hc⟩ := norm_ex V hn (hS.mono hz.1)
  have hz' := hS.mono hz.1
  have e0 := norm_nonneg V hn hx h
  have d0 := norm_nonneg V hn hy h'
  have c0 := norm_nonneg V hn hz' hc
  have lx := norm_lub V hn hx h
  have ly := norm_lub V hn hy h'
  have lz := norm_lub V hn hz' hc
  refine ⟨c, hc, ?_, ?_, fun r hr hle => norm_le_of V hn hS hz hc hr ?_⟩
  · obtain ⟨w, -, hw⟩ := hc; exact ⟨w, hw⟩
  · have prod : ∀ a ∈ γ x, ∀ b ∈ γ y, ((|a| : ℝ) : EReal) * ((|b| : ℝ) : EReal) ≤ c := fun a ha b hb => by
      rw [← EReal.coe_mul, ← abs_mul]
      exact lz.1 ⟨_, hz.1 ⟨a, ha, b, hb, rfl⟩, rfl⟩
    have step : ∀ b ∈ γ y, e * ((|b| : ℝ) : EReal) ≤ c := fun b hb => by
      rcases eq_or_lt_of_le (abs_nonneg b) with hb0 | hb0
      · rw [← hb0]; simpa using c0
      · refine (EReal.le_div_iff_mul_le (by exact_mod_cast hb0) (EReal.coe_ne_top _)).1 (lx.2 ?_)
        rintro _ ⟨a, ha, rfl⟩
        exact (EReal.le_div_iff_mul_le (by exact_mod_cast hb0) (EReal.coe_ne_top _)).2 (prod a ha b hb)
    rcases eq_or_lt_of_le e0 with he | he
    · rw [← he, zero_mul]; exact c0
    by_cases ht : e = ⊤
    · rcases eq_or_lt_of_le d0 with hd | hd
      · rw [← hd, mul_zero]; exact c0
      · obtain ⟨b, hb, hb0⟩ : ∃ b ∈ γ y, b ≠ 0 := by
          by_contra hcon
          push Not at hcon
          refine hd.ne' (le_antisymm (ly.2 ?_) d0)
          rintro _ ⟨b, hb, rfl⟩
          rw [hcon b hb]; simp
        have := step b hb
        rw [ht, EReal.top_mul_coe_of_pos (abs_pos.2 hb0), top_le_iff] at this
        rw [this]; exact le_top
    · rw [mul_comm]
      refine (EReal.le_div_iff_mul_le he ht).1 (ly.2 ?_)
      rintro _ ⟨b, hb, rfl⟩
      exact (EReal.le_div_iff_mul_le he ht).2 (by rw [mul_comm]; exact step b hb)
  · rintro _ ⟨a, ha, b, hb, rfl⟩
    rw [abs_mul, EReal.coe_mul]
    exact le_trans (mul_le_mul_of_nonneg (lx.1 ⟨a, ha, rfl⟩) (ly.1 ⟨b, hb, rfl⟩) (by exact_mod_cast abs_nonneg a) d0) hle

/-! ## C61: subdistributivity -/

/-- With exact arithmetic, `x * (y + z)` is contained in `x * y + x * z`. -/
theorem C61_exact_partial (hk : V.kind = .exact) (hE : ExactBase T) (hm : ModeFree T V.lib) (hx : (γ x).Nonempty) (hy : (γ y).Nonempty)
    (hz : (γ z).Nonempty) (bx : Bornology.IsBounded (γ x)) (hb : Bornology.IsBounded (γ y)) (bz : Bornology.IsBounded (γ z)) :
    V.Returns (do let s ← addII V.P y z; mulII V.P x s) fun l =>
      V.Returns (do let p ← mulII V.P x y; let q ← mulII V.P x z; addII V.P p q) fun r => γ l ⊆ γ r := by
  have bnd : ∀ {A B : Set ℝ} (f : ℝ × ℝ → ℝ), Continuous f → Bornology.IsBounded A → Bornology.IsBounded B →
      Bornology.IsBounded {q | ∃ a ∈ A, ∃ b ∈ B, f (a, b) = q} := by
    intro A B f hf hA hB
    have h1 : IsCompact (closure A ×ˢ closure B) := hA.isCompact_closure.prod hB.isCompact_closure
    refine (h1.image hf).isBounded.subset ?_
    rintro _ ⟨a, ha, b, hb, rfl⟩
    exact ⟨(a, b), ⟨subset_closure ha, subset_closure hb⟩, rfl⟩
  refine ((C41_add V hk hE hm hy hz hb bz).bind (R := fun l => γ l = {q | ∃ a ∈ γ x, ∃ b ∈ γ y, ∃ c ∈ γ z, a * (b + c) = q})
    fun s hs => ?_).mono fun l hl => ?_
  · refine (C41_mul V hk hE hm hx ?_ bx ?_).mono fun l hl => ?_
    · rw [hs]; exact hy.image2 hz
    · rw [hs]; exact bnd (fun p => p.1 + p.2) (by fun_prop) hb bz
    · rw [hl, hs]; ext q; constructor
      · rintro ⟨a, ha, _, ⟨b, hb, c, hc, rfl⟩, rfl⟩; exact ⟨a, ha, b, hb, c, hc, rfl⟩
      · rintro ⟨a, ha, b, hb, c, hc, rfl⟩; exact ⟨a, ha, _, ⟨b, hb, c, hc, rfl⟩, rfl⟩
  · refine (C41_mul V hk hE hm hx hy bx hb).bind fun p hp => (C41_mul V hk hE hm hx hz bx bz).bind fun q hq => ?_
    refine (C41_add V hk hE hm ?_ ?_ ?_ ?_).mono fun r hr => ?_
    · rw [hp]; exact hx.image2 hy
    · rw [hq]; exact hx.image2 hz
    · rw [hp]; exact bnd (fun p => p.1 * p.2) (by fun_prop) bx hb
    · rw [hq]; exact bnd (fun p => p.1 * p.2) (by fun_prop) bx bz
    · rw [hl, hr, hp, hq]
      rintro _ ⟨a, ha, b, hb, c, hc, rfl⟩
      exact ⟨a * b, ⟨a, ha, b, hb, rfl⟩, a * c, ⟨a, ha, c, hc, rfl⟩, (mul_add a b c).symm⟩

/-! ## C62: the lattice of intervals -/

theorem least_unique {S : Set ℝ} (h : LeastEnclosing x S) (h' : LeastEnclosing y S) : γ x = γ y :=
  Subset.antisymm (h.2 y h'.1) (h'.2 x h.1)

/-- Both computations return, and the results contain the same numbers; if one is an empty interval, so is the other. -/
def SameItv (p q : Res (Itv T)) : Prop := ∃ u v, p = .ok u ∧ q = .ok v ∧ γ u = γ v ∧ (Void u ↔ Void v)

/-- The same, or both report the empty interval. -/
def SameOutcome (p q : Res (Itv T)) : Prop :=
  SameItv p q ∨ (p = .error .emptyCreated ∧ q = .error .emptyCreated)

theorem gamma_convex {a b c : ℝ} (ha : a ∈ γ x) (hb : b ∈ γ x) (h1 : a ≤ c) (h2 : c ≤ b) : c ∈ γ x := by
  obtain ⟨l, u, hl, hu, h3, -⟩ := ha
  obtain ⟨l', u', hl', hu', -, h4⟩ := hb
  rw [hu] at hu'; cases hu'
  exact ⟨l, u, hl, hu, h3.trans (by exact_mod_cast h1), le_trans (by exact_mod_cast h2) h4⟩

theorem Env.Proper.void_iff (h : V.Proper x) : Void x ↔ γ x = ∅ := by
  refine ⟨Void.gamma, fun e => ?_⟩
  rcases h with h | h
  · rw [e] at h; exact absurd h not_nonempty_empty
  · exact h.1

theorem sameItv_of {p q : Res (Itv T)} {u v : Itv T} (hp : p = .ok u) (hq : q = .ok v) (pu : V.Proper u) (pv : V.Proper v)
    (e : γ u = γ v) : SameItv p q := ⟨u, v, hp, hq, e, by rw [pu.void_iff, pv.void_iff, e]⟩

/-! ### `hull` and `intersect` -/

theorem hull_outcome (hx : V.Proper x) (hy : V.Proper y) :
    ∃ u, hullII V.C x y = .ok u ∧ V.Proper u ∧ LeastEnclosing u (γ x ∪ γ y) := by
  rcases (γ x ∪ γ y).eq_empty_or_nonempty with h | h
  · have h' := union_empty_iff.1 h
    have vx := hx.void_iff.2 h'.1
    have h0 : V.checks.forbidsEmpty = false := by
      rcases hx with k | k
      · rw [h'.1] at k; exact absurd k not_nonempty_empty
      · exact k.2
    obtain ⟨u, hu, vu⟩ := (C09_hull V h0 vx).1 (hy.void_iff.2 h'.2)
    refine ⟨u, hu, .inr ⟨vu, h0⟩, by rw [h]; exact empty_subset _, fun z _ => by rw [vu.gamma]; exact empty_subset _⟩
  · obtain ⟨u, hu, lu⟩ := C24_hull V hx hy h
    exact ⟨u, hu, .inl (h.mono lu.1), lu⟩

theorem C62_hull_comm (hx : V.Proper x) (hy : V.Proper y) : SameItv (hullII V.C x y) (hullII V.C y x) := by
  obtain ⟨u, hu, pu, lu⟩ := hull_outcome V hx hy
  obtain ⟨v, hv, pv, lv⟩ := hull_outcome V hy hx
  rw [union_comm] at lv
  exact sameItv_of V hu hv pu pv (least_unique lu lv)

theorem C62_hull_assoc (hx : V.Proper x) (hy : V.Proper y) (hz : V.Proper z) :
    SameItv (do let p ← hullII V.C x y; hullII V.C p z) (do let q ← hullII V.C y z; hullII V.C x q) := by
  obtain ⟨p, hp, pp, lp⟩ := hull_outcome V hx hy
  obtain ⟨q, hq, pq, lq⟩ := hull_outcome V hy hz
  obtain ⟨u, hu, pu, lu⟩ := hull_outcome V pp hz
  obtain ⟨v, hv, pv, lv⟩ := hull_outcome V hx pq
  refine sameItv_of V (by rw [hp]; exact hu) (by rw [hq]; exact hv) pu pv (Subset.antisymm (lu.2 v ?_) (lv.2 u ?_))
  · refine union_subset (lp.2 v (union_subset ?_ ?_)) ?_
    · exact subset_union_left.trans lv.1
    · exact (subset_union_left.trans lq.1).trans (subset_union_right.trans lv.1)
    · exact (subset_union_right.trans lq.1).trans (subset_union_right.trans lv.1)
  · refine union_subset ?_ (lq.2 u (union_subset ?_ ?_))
    · exact (subset_union_left.trans lp.1).trans (subset_union_left.trans lu.1)
    · exact (subset_union_right.trans lp.1).trans (subset_union_left.trans lu.1)
    · exact subset_union_right.trans lu.1

theorem C62_hull_idem (hx : V.Proper x) : SameItv (hullII V.C x x) (.ok x) := by
  obtain ⟨u, hu, pu, lu⟩ := hull_outcome V hx hx
  rw [union_self] at lu
  exact sameItv_of V hu rfl pu hx (Subset.antisymm (lu.2 x subset_rfl) lu.1)

/-- `p` computes the intersection `S`, or reports that it is empty. -/
def Env.Meets (V : Env T) (p : Res (Itv T)) (S : Set ℝ) : Prop :=
  (∃ u, p = .ok u ∧ γ u = S ∧ V.Proper u) ∨ (p = .error .emptyCreated ∧ V.checks.forbidsEmpty = true ∧ S = ∅)

theorem inter_outcome (hx : V.Proper x) (hy : V.Proper y) :
    V.Meets (intersect V.C x y) (γ x ∩ γ y) := by
  rcases (γ x ∩ γ y).eq_empty_or_nonempty with h | h
  · rcases C23_disjoint V hx hy h with ⟨h0, u, hu, vu⟩ | ⟨h0, hu⟩
    · exact .inl ⟨u, hu, by rw [vu.gamma, h], .inr ⟨vu, h0⟩⟩
    · exact .inr ⟨hu, h0, h⟩
  · obtain ⟨u, hu, eu⟩ := C23_intersect V h
    exact .inl ⟨u, hu, eu, .inl (by rw [eu]; exact h)⟩

theorem proper_ne (hx : V.Proper x) (h0 : V.checks.forbidsEmpty = true) : γ x ≠ ∅ := fun e => by
  rcases hx with h | ⟨-, h⟩
  · rw [e] at h; exact not_nonempty_empty h
  · rw [h0] at h; cases h

theorem Env.Meets.same {p q : Res (Itv T)} {S : Set ℝ} (hp : V.Meets p S) (hq : V.Meets q S) : SameOutcome p q := by
  rcases hp with ⟨u, hu, eu, pu⟩ | ⟨hu, h0, e⟩
  · rcases hq with ⟨v, hv, ev, pv⟩ | ⟨hv, h0, e⟩
    · exact .inl (sameItv_of V hu hv pu pv (by rw [eu, ev]))
    · exact absurd (eu.trans e) (proper_ne V pu h0)
  · rcases hq with ⟨v, hv, ev, pv⟩ | ⟨hv, -, -⟩
    · exact absurd (ev.trans e) (proper_ne V pv h0)
    · exact .inr ⟨hu, hv⟩

theorem C62_intersect_comm (hx : V.Proper x) (hy : V.Proper y) :
    SameOutcome (intersect V.C x y) (intersect V.C y x) :=
  (inter_outcome V hx hy).same V (by rw [inter_comm]; exact inter_outcome V hy hx)

theorem C62_intersect_assoc (hx : V.Proper x) (hy : V.Proper y) (hz : V.Proper z) :
    SameOutcome (do let p ← intersect V.C x y; intersect V.C p z) (do let q ← intersect V.C y z; intersect V.C x q) := by
  refine Env.Meets.same V (S := γ x ∩ γ y ∩ γ z) ?_ ?_
  · rcases inter_outcome V hx hy with ⟨p, hp, ep, pp⟩ | ⟨hp, h0, e⟩
    · rw [hp, ← ep]; exact inter_outcome V pp hz
    · rw [hp]; exact .inr ⟨rfl, h0, by rw [e, empty_inter]⟩
  · rw [inter_assoc]
    rcases inter_outcome V hy hz with ⟨q, hq, eq, pq⟩ | ⟨hq, h0, e⟩
    · rw [hq, ← eq]; exact inter_outcome V hx pq
    · rw [hq]; exact .inr ⟨rfl, h0, by rw [e, inter_empty]⟩

/-- The intersection of an interval with a larger one, and of an interval with itself. -/
theorem inter_sub (hx : V.Proper x) (hy : V.Proper y) (h : γ x ⊆ γ y) : SameItv (intersect V.C x y) (.ok x) := by
  rcases inter_outcome V hx hy with ⟨u, hu, eu, pu⟩ | ⟨-, h0, e⟩
  · exact sameItv_of V hu rfl pu hx (by rw [eu, inter_eq_left.2 h])
  · rw [inter_eq_left.2 h] at e; exact absurd e (proper_ne V hx h0)

theorem C62_intersect_idem (hx : V.Proper x) : SameItv (intersect V.C x x) (.ok x) := inter_sub V hx hx subset_rfl

/-- Absorption: `intersect(x, hull(x, y))` is `x`. -/
theorem C62_absorb (hx : V.Proper x) (hy : V.Proper y) :
    SameItv (do let h ← hullII V.C x y; intersect V.C x h) (.ok x) := by
  obtain ⟨h, hh, ph, lh⟩ := hull_outcome V hx hy
  rw [hh]
  exact inter_sub V hx ph (subset_union_left.trans lh.1)

/-- Absorption: `hull(x, intersect(x, y))` is `x`; if the policies do not represent the empty interval and the intervals are
disjoint, `intersect` reports it. -/
theorem C62_absorb' (hx : V.Proper x) (hy : V.Proper y) :
    SameItv (do let i ← intersect V.C x y; hullII V.C x i) (.ok x) ∨
    ((do let i ← intersect V.C x y; hullII V.C x i) = .error .emptyCreated ∧ V.checks.forbidsEmpty = true ∧ γ x ∩ γ y = ∅) := by
  rcases inter_outcome V hx hy with ⟨i, hi, ei, pi⟩ | ⟨h, h0, e⟩
  · obtain ⟨u, hu, pu, lu⟩ := hull_outcome V hx pi
    rw [ei, union_eq_left.2 inter_subset_left] at lu
    exact .inl (sameItv_of V (by rw [hi]; exact hu) rfl pu hx (Subset.antisymm (lu.2 x subset_rfl) lu.1))
  · exact .inr ⟨by rw [h]; rfl, h0, e⟩

/-! ### `min` and `max` -/

/-- The points `f a b` with `a` in `A` and `b` in `B`. -/
private abbrev im (f : ℝ → ℝ → ℝ) (A B : Set ℝ) : Set ℝ := {q | ∃ a ∈ A, ∃ b ∈ B, f a b = q}

private theorem minmax_outcome (hx : V.Proper x) (hy : V.Proper y) :
    (∃ u, maxII V.C x y = .ok u ∧ V.Proper u ∧ γ u = im max (γ x) (γ y)) ∧
    ∃ u, minII V.C x y = .ok u ∧ V.Proper u ∧ γ u = im min (γ x) (γ y) := by
  have key : (Void x ∨ Void y) → V.checks.forbidsEmpty = false →
      (∃ u, maxII V.C x y = .ok u ∧ V.Proper u ∧ γ u = im max (γ x) (γ y)) ∧
      ∃ u, minII V.C x y = .ok u ∧ V.Proper u ∧ γ u = im min (γ x) (γ y) := by
    intro h h0
    have he : ∀ f, im f (γ x) (γ y) = ∅ := fun f => by
      rw [eq_empty_iff_forall_notMem]
      rintro q ⟨a, ha, b, hb, -⟩
      rcases h with h | h
      · rw [h.gamma] at ha; exact ha
      · rw [h.gamma] at hb; exact hb
    obtain ⟨⟨u, hu, vu⟩, ⟨v, hv, vv⟩, -⟩ := C09_pure V h0 h
    exact ⟨⟨v, hv, .inr ⟨vv, h0⟩, by rw [he, vv.gamma]⟩, ⟨u, hu, .inr ⟨vu, h0⟩, by rw [he, vu.gamma]⟩⟩
  rcases hx with hx | ⟨vx, h0⟩
  · rcases hy with hy | ⟨vy, h0⟩
    · obtain ⟨u, hu, eu⟩ := C29_max V hx hy
      obtain ⟨v, hv, ev⟩ := C29_min V hx hy
      exact ⟨⟨u, hu, .inl (by rw [eu]; exact hx.image2 hy), eu⟩, ⟨v, hv, .inl (by rw [ev]; exact hx.image2 hy), ev⟩⟩
    · exact key (.inr vy) h0
  · exact key (.inl vx) h0

theorem C62_max_comm (hx : V.Proper x) (hy : V.Proper y) :
    SameItv (maxII V.C x y) (maxII V.C y x) ∧ SameItv (minII V.C x y) (minII V.C y x) := by
  obtain ⟨⟨u, hu, pu, eu⟩, ⟨u', hu', pu', eu'⟩⟩ := minmax_outcome V hx hy
  obtain ⟨⟨v, hv, pv, ev⟩, ⟨v', hv', pv', ev'⟩⟩ := minmax_outcome V hy hx
  refine ⟨sameItv_of V hu hv pu pv ?_, sameItv_of V hu' hv' pu' pv' ?_⟩
  · rw [eu, ev]; ext q; constructor <;> rintro ⟨a, ha, b, hb, rfl⟩ <;> exact ⟨b, hb, a, ha, max_comm _ _⟩
  · rw [eu', ev']; ext q; constructor <;> rintro ⟨a, ha, b, hb, rfl⟩ <;> exact ⟨b, hb, a, ha, min_comm _ _⟩

theorem C62_max_assoc (hx : V.Proper x) (hy : V.Proper y) (hz : V.Proper z) :
    SameItv (do let p ← maxII V.C x y; maxII V.C p z) (do let q ← maxII V.C y z; maxII V.C x q) ∧
    SameItv (do let p ← minII V.C x y; minII V.C p z) (do let q ← minII V.C y z; minII V.C x q) := by
  obtain ⟨⟨p, hp, pp, ep⟩, ⟨p', hp', pp', ep'⟩⟩ := minmax_outcome V hx hy
  obtain ⟨⟨q, hq, pq, eq⟩, ⟨q', hq', pq', eq'⟩⟩ := minmax_outcome V hy hz
  constructor
  · obtain ⟨u, hu, pu, eu⟩ := (minmax_outcome V pp hz).1
    obtain ⟨v, hv, pv, ev⟩ := (minmax_outcome V hx pq).1
    refine sameItv_of V (by rw [hp]; exact hu) (by rw [hq]; exact hv) pu pv ?_
    rw [eu, ev, ep, eq]; ext t; constructor
    · rintro ⟨_, ⟨a, ha, b, hb, rfl⟩, c, hc, rfl⟩; exact ⟨a, ha, _, ⟨b, hb, c, hc, rfl⟩, (max_assoc _ _ _).symm⟩
    · rintro ⟨a, ha, _, ⟨b, hb, c, hc, rfl⟩, rfl⟩; exact ⟨_, ⟨a, ha, b, hb, rfl⟩, c, hc, max_assoc _ _ _⟩
  · obtain ⟨u, hu, pu, eu⟩ := (minmax_outcome V pp' hz).2
    obtain ⟨v, hv, pv, ev⟩ := (minmax_outcome V hx pq').2
    refine sameItv_of V (by rw [hp']; exact hu) (by rw [hq']; exact hv) pu pv ?_
    rw [eu, ev, ep', eq']; ext t; constructor
    · rintro ⟨_, ⟨a, ha, b, hb, rfl⟩, c, hc, rfl⟩; exact ⟨a, ha, _, ⟨b, hb, c, hc, rfl⟩, (min_assoc _ _ _).symm⟩
    · rintro ⟨a, ha, _, ⟨b, hb, c, hc, rfl⟩, rfl⟩; exact ⟨_, ⟨a, ha, b, hb, rfl⟩, c, hc, min_assoc _ _ _⟩

/-- `max(x, x)` and `min(x, x)` are `x`. -/
theorem C62_max_idem (hx : V.Proper x) : SameItv (maxII V.C x x) (.ok x) ∧ SameItv (minII V.C x x) (.ok x) := by
  obtain ⟨⟨u, hu, pu, eu⟩, ⟨v, hv, pv, ev⟩⟩ := minmax_outcome V hx hx
  refine ⟨sameItv_of V hu rfl pu hx ?_, sameItv_of V hv rfl pv hx ?_⟩
  · rw [eu]; ext q; constructor
    · rintro ⟨a, ha, b, hb, rfl⟩; rcases max_choice a b with h | h <;> rw [h] <;> assumption
    · intro hq; exact ⟨q, hq, q, hq, max_self q⟩
  · rw [ev]; ext q; constructor
    · rintro ⟨a, ha, b, hb, rfl⟩; rcases min_choice a b with h | h <;> rw [h] <;> assumption
    · intro hq; exact ⟨q, hq, q, hq, min_self q⟩

/-- Absorption: `min(x, max(x, y))` and `max(x, min(x, y))` are `x`. Missing from the full claim: an empty `y`, for which it
is false (`C62_absorb_empty`). -/
theorem C62_max_absorb_partial (hx : V.Proper x) (hy : (γ y).Nonempty) :
    SameItv (do let p ← maxII V.C x y; minII V.C x p) (.ok x) ∧ SameItv (do let p ← minII V.C x y; maxII V.C x p) (.ok x) := by
  obtain ⟨⟨p, hp, pp, ep⟩, ⟨p', hp', pp', ep'⟩⟩ := minmax_outcome V hx (.inl hy)
  constructor
  · obtain ⟨u, hu, pu, eu⟩ := (minmax_outcome V hx pp).2
    refine sameItv_of V (by rw [hp]; exact hu) rfl pu hx ?_
    rw [eu, ep]; ext q; constructor
    · rintro ⟨a, ha, _, ⟨a', ha', b, hb, rfl⟩, rfl⟩
      have hm : min a a' ∈ γ x := by rcases min_choice a a' with h | h <;> rw [h] <;> assumption
      exact gamma_convex hm ha (min_le_min_left a (le_max_left a' b)) (min_le_left _ _)
    · intro hq
      obtain ⟨b, hb⟩ := hy
      exact ⟨q, hq, _, ⟨q, hq, b, hb, rfl⟩, min_eq_left (le_max_left q b)⟩
  · obtain ⟨u, hu, pu, eu⟩ := (minmax_outcome V hx pp').1
    refine sameItv_of V (by rw [hp']; exact hu) rfl pu hx ?_
    rw [eu, ep']; ext q; constructor
    · rintro ⟨a, ha, _, ⟨a', ha', b, hb, rfl⟩, rfl⟩
      have hm : max a a' ∈ γ x := by rcases max_choice a a' with h | h <;> rw [h] <;> assumption
      exact gamma_convex ha hm (le_max_left _ _) (max_le_max_left a (min_le_left a' b))
    · intro hq
      obtain ⟨b, hb⟩ := hy
      exact ⟨q, hq, _, ⟨q, hq, b, hb, rfl⟩, max_eq_left (min_le_left q b)⟩

/-- Distributivity: `min(x, max(y, z))` is `max(min(x, y), min(x, z))`. -/
theorem C62_distrib (hx : V.Proper x) (hy : V.Proper y) (hz : V.Proper z) :
    SameItv (do let p ← maxII V.C y z; minII V.C x p)
      (do let p ← minII V.C x y; let q ← minII V.C x z; maxII V.C p q) := by
  obtain ⟨m, hm, pm, em⟩ := (minmax_outcome V hy hz).1
  obtain ⟨u, hu, pu, eu⟩ := (minmax_outcome V hx pm).2
  obtain ⟨p, hp, pp, ep⟩ := (minmax_outcome V hx hy).2
  obtain ⟨q, hq, pq, eq⟩ := (minmax_outcome V hx hz).2
  obtain ⟨v, hv, pv, ev⟩ := (minmax_outcome V pp pq).1
  refine sameItv_of V (by rw [hm]; exact hu) (by rw [hp, hq]; exact hv) pu pv ?_
  rw [eu, ev, em, ep, eq]; ext t; constructor
  · rintro ⟨a, ha, _, ⟨b, hb, c, hc, rfl⟩, rfl⟩
    exact ⟨_, ⟨a, ha, b, hb, rfl⟩, _, ⟨a, ha, c, hc, rfl⟩, (min_max_distrib_left a b c).symm⟩
  · rintro ⟨_, ⟨a, ha, b, hb, rfl⟩, _, ⟨a', ha', c, hc, rfl⟩, rfl⟩
    have hm : min a a' ∈ γ x := by rcases min_choice a a' with h | h <;> rw [h] <;> assumption
    have hM : max a a' ∈ γ x := by rcases max_choice a a' with h | h <;> rw [h] <;> assumption
    have h1 : max (min a b) (min a' c) ≤ max b c := max_le_max (min_le_right _ _) (min_le_right _ _)
    have h2 : max (min a b) (min a' c) ≤ max a a' := max_le_max (min_le_left _ _) (min_le_left _ _)
    by_cases h : min a a' ≤ max (min a b) (min a' c)
    · exact ⟨_, gamma_convex hm hM h h2, _, ⟨b, hb, c, hc, rfl⟩, min_eq_left h1⟩
    · have h3 := lt_min_iff.1 (not_le.1 h)
      have h4 : min a b = b := (min_choice a b).resolve_left fun e =>
        absurd (lt_of_le_of_lt (le_max_left (min a b) (min a' c)) h3.1) (by rw [e]; exact lt_irrefl a)
      have h5 : min a' c = c := (min_choice a' c).resolve_left fun e =>
        absurd (lt_of_le_of_lt (le_max_right (min a b) (min a' c)) h3.2) (by rw [e]; exact lt_irrefl a')
      rw [h4, h5] at h3
      exact ⟨a, ha, _, ⟨b, hb, c, hc, rfl⟩, by rw [h4, h5]; exact min_eq_right h3.1.le⟩

/-! ## Witnesses -/

private theorem val_single (m : ℤ) (k : ℕ) (h : |m| < 2 ^ 24) (hk : k ≤ 10) :
    val (Fl.ofInt .near (m * 2 ^ k) : Fl Fmt.single) = some (((m * 2 ^ k : ℤ) : ℝ) : EReal) :=
  (intIs_fl ⟨m, k, h, by simp only [Fmt.single]; omega, by simp only [Fmt.single]; omega, by push_cast; rw [zpow_natCast]⟩).2

/-- The triangle inequality fails against the exact sum: `norm([2^24, 2^24] + [1, 1])` is `2^24 + 2` in single
precision. -/
theorem C60_violated :
    let x : Itv (Fl Fmt.single) := ⟨Fl.ofInt .near 16777216, Fl.ofInt .near 16777216⟩
    ∃ z, (addII flt.P x (litI 1 1) (⟨(0x037f : BitVec 16), fun _ => true⟩ : flt.State)).1 = .ok z ∧
      flt.NormIs x ((16777216 : ℝ) : EReal) ∧ flt.NormIs (litI 1 1) ((1 : ℝ) : EReal) ∧ flt.NormIs z ((16777218 : ℝ) : EReal) := by
  refine ⟨⟨Fl.ofInt .near 16777216, Fl.ofInt .near 16777218⟩, by decide +kernel,
    ⟨Fl.ofInt .near 16777216, by decide +kernel, ?_⟩, ⟨Fl.ofInt .near 1, by decide +kernel, ?_⟩,
    ⟨Fl.ofInt .near 16777218, by decide +kernel, ?_⟩⟩
  · simpa using val_single 8388608 1 (by norm_num) (by norm_num)
  · simpa using val_single 1 0 (by norm_num) (by norm_num)
  · simpa using val_single 8388609 1 (by norm_num) (by norm_num)

/-- Subdistributivity fails with rounding: the number `3 * 2^24 + 8` is in `[3, 3] * ([2^24, 2^24] + [1, 1])`, not in
`[3, 3] * [2^24, 2^24] + [3, 3] * [1, 1]`. -/
theorem C61_violated :
    let x : Itv (Fl Fmt.single) := ⟨Fl.ofInt .near 3, Fl.ofInt .near 3⟩
    let y : Itv (Fl Fmt.single) := ⟨Fl.ofInt .near 16777216, Fl.ofInt .near 16777216⟩
    let s : flt.State := ⟨(0x037f : BitVec 16), fun _ => true⟩
    ∃ l r, ((do let t ← addII flt.P y (litI 1 1); mulII flt.P x t) s).1 = .ok l ∧
      ((do let p ← mulII flt.P x y; let q ← mulII flt.P x (litI 1 1); addII flt.P p q) s).1 = .ok r ∧
      (50331656 : ℝ) ∈ γ l ∧ (50331656 : ℝ) ∉ γ r := by
  refine ⟨⟨Fl.ofInt .near 50331648, Fl.ofInt .near 50331656⟩, ⟨Fl.ofInt .near 50331648, Fl.ofInt .near 50331652⟩,
    by decide +kernel, by decide +kernel, ?_, ?_⟩
  · refine ⟨_, _, val_single 12582912 2 (by norm_num) (by norm_num), val_single 12582914 2 (by norm_num) (by norm_num), ?_, ?_⟩ <;>
      exact_mod_cast (by norm_num)
  · rintro ⟨l, u, -, hu, -, h⟩
    have hu : val (Fl.ofInt .near 50331652 : Fl Fmt.single) = some u := hu
    rw [show (50331652 : ℤ) = 12582913 * 2 ^ 2 by norm_num, val_single 12582913 2 (by norm_num) (by norm_num)] at hu
    cases hu
    have : (50331656 : ℝ) ≤ ((12582913 * 2 ^ 2 : ℤ) : ℝ) := by exact_mod_cast h
    norm_num at this

/-- Absorption of `min` and `max` fails if the other operand is empty: the result is. -/
theorem C62_absorb_empty :
    ∃ u v, (do let p ← maxII flt.C (litI 0 1) ⟨.nan, .nan⟩; minII flt.C (litI 0 1) p) = .ok u ∧
      (do let p ← minII flt.C (litI 0 1) ⟨.nan, .nan⟩; maxII flt.C (litI 0 1) p) = .ok v ∧ Void u ∧ Void v ∧
      ¬ Void (litI 0 1 : Itv (Fl Fmt.single)) := by
  refine ⟨⟨.nan, .nan⟩, ⟨.nan, .nan⟩, by decide +kernel, by decide +kernel, ?_, ?_, fun h => ?_⟩
  · intro _ _ h; cases h
  · intro _ _ h; cases h
  have : (0 : ℝ) ∈ γ (litI 0 1 : Itv (Fl Fmt.single)) := in_lit
  rw [h.gamma] at this
  exact this

/-! ## The hypotheses can be met -/

example : dbl.Returns (mulII dbl.P (litI (-1) 2) (litI (-2) 1)) fun z => ∃ c, dbl.NormIs z c ∧ IsRoundUp (Fl Fmt.double) c (((2 : ℤ) : ℝ) * ((2 : ℤ) : ℝ)) :=
  C60_mul dbl dbl_tight fl_neg ne_lit ne_lit ⟨Num.lit 2, by decide +kernel, NumLaws.lit (T := Fl Fmt.double) 2 (by decide)⟩
    ⟨Num.lit 2, by decide +kernel, NumLaws.lit (T := Fl Fmt.double) 2 (by decide)⟩
example := C60_triangle_partial flt flt_tight fl_neg (x := litI (-1) 2) (y := litI (-2) 1) ne_lit ne_lit
  ⟨Num.lit 2, by decide +kernel, NumLaws.lit (T := Fl Fmt.single) 2 (by decide)⟩
  ⟨Num.lit 2, by decide +kernel, NumLaws.lit (T := Fl Fmt.single) 2 (by decide)⟩
example := C60_zero dbl fl_neg (x := litI (-1) 2) ne_lit
  ⟨Num.lit 2, by decide +kernel, NumLaws.lit (T := Fl Fmt.double) 2 (by decide)⟩
example := C60_neg dbl fl_neg (x := litI (-1) 2) ne_lit
  ⟨Num.lit 2, by decide +kernel, NumLaws.lit (T := Fl Fmt.double) 2 (by decide)⟩
example := C60_mono dbl fl_neg (x := litI (-1) 2) (y := litI (-1) 2) ne_lit subset_rfl
  ⟨Num.lit 2, by decide +kernel, NumLaws.lit (T := Fl Fmt.double) 2 (by decide)⟩
  ⟨Num.lit 2, by decide +kernel, NumLaws.lit (T := Fl Fmt.double) 2 (by decide)⟩
example := C61_exact_partial ratEnv rfl rat_exact (rat_modeFree _ fun _ _ _ _ => rfl) (x := litI 1 2) (y := litI (-3) 5) (z := litI (-1) 4)
  ne_lit ne_lit ne_lit (rat_bounded _) (rat_bounded _) (rat_bounded _)

private theorem empty_flt : flt.Proper ⟨.nan, .nan⟩ := .inr ⟨(fun _ _ h => by cases h), rfl⟩

example := C62_hull_comm flt (x := ⟨.nan, .nan⟩) (y := litI 0 1) empty_flt (.inl ne_lit)
example := C62_hull_assoc flt (x := litI 0 1) (y := ⟨.nan, .nan⟩) (z := litI 2 3) (.inl ne_lit) empty_flt (.inl ne_lit)
example := C62_intersect_assoc flt (x := ⟨.nan, .nan⟩) (y := litI 0 1) (z := litI 1 2) empty_flt (.inl ne_lit) (.inl ne_lit)
example := C62_intersect_assoc dbl (x := litI 0 1) (y := litI 2 3) (z := litI 1 2) (.inl ne_lit) (.inl ne_lit) (.inl ne_lit)
example := C62_absorb' flt (x := litI 0 1) (y := litI 2 3) (.inl ne_lit) (.inl ne_lit)
example := C62_absorb' dbl (x := litI 0 1) (y := litI 2 3) (.inl ne_lit) (.inl ne_lit)
example := C62_distrib flt (x := litI 0 1) (y := litI 2 3) (z := ⟨.nan, .nan⟩) (.inl ne_lit) (.inl ne_lit) empty_flt
example := C62_distrib dbl (x := litI 0 1) (y := litI 2 3) (z := litI (-1) 2) (.inl ne_lit) (.inl ne_lit) (.inl ne_lit)
example := C62_hull_idem dbl (x := litI 0 1) (.inl ne_lit)
example := C62_intersect_idem dbl (x := litI 0 1) (.inl ne_lit)
example := C62_intersect_comm dbl (x := litI 0 1) (y := litI 2 3) (.inl ne_lit) (.inl ne_lit)
example := C62_absorb flt (x := litI 0 1) (y := ⟨.nan, .nan⟩) (.inl ne_lit) empty_flt
example := C62_max_comm dbl (x := litI 0 3) (y := litI 1 2) (.inl ne_lit) (.inl ne_lit)
example := C62_max_assoc flt (x := litI 0 1) (y := ⟨.nan, .nan⟩) (z := litI (-1) 2) (.inl ne_lit) empty_flt (.inl ne_lit)
example := C62_max_idem dbl (x := litI 0 1) (.inl ne_lit)
example := C62_max_absorb_partial dbl (x := litI 0 3) (y := litI 1 2) (.inl ne_lit) ne_lit

end BI
