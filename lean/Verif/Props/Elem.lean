import Mathlib.Analysis.Real.Pi.Irrational
import Verif.Proofs.InstElem
import Verif.Proofs.Conv
import Verif.Proofs.Bridge
/-!
# C19: exp, log, asin, acos, atan, sinh, cosh, tanh, asinh, acosh, atanh

`f.I` is the interval function of transc.hpp belonging to `f`, `f.real` the real function, `f.dom` its domain.
`V.FnOk D U f` states that the rounding policy obtains directed approximations of `f` from the library.
-/

set_option linter.unusedSectionVars false

namespace BI
open Set

variable {T : Type} [Num T] [Val T] [NumLaws T] (V : Env T) {x : Itv T} {K : PiConst T} {fuel : Nat} {f : Fn}

omit [Val T] [NumLaws T] in
theorem Fn.I_sim {I J : Inv V.ctl.W} {P : Policies (M V.ctl.W) T} (h : PSim I J P V.B V.C) (f : Fn) (x : Itv T) :
    Sim I (f.I K fuel P x) (f.I K fuel V.pp x) := by
  cases f with
  | exp => exact increasingI_sim h .exp x
  | log => exact logI_sim h x
  | sin => exact sinI_sim h K fuel x
  | cos => exact cosI_sim K fuel x h
  | tan => exact tanI_sim h K x
  | asin => exact asinI_sim h K x
  | acos => exact acosI_sim h K x
  | atan => exact increasingI_sim h .atan x
  | sinh => exact increasingI_sim h .sinh x
  | cosh => exact coshI_sim h x
  | tanh => exact increasingI_sim h .tanh x
  | asinh => exact increasingI_sim h .asinh x
  | acosh => exact acoshI_sim h x
  | atanh => exact atanhI_sim h x

/-- The result contains the value of the function at every point of `x` in the domain. -/
theorem C19_enclose_partial (hV : V.Directed) (hs : f.simple = true) (hf : V.FnOk LeB GeB f) (hK : Brackets K)
    (hi : f.unbounded = true → InfBase T) (hx : (γ x ∩ f.dom).Nonempty) :
    V.Returns (f.I K fuel V.P x) fun z => ∀ r ∈ γ x, r ∈ f.dom → f.real r ∈ γ z :=
  V.run hV (fun _ h => Fn.I_sim V h f x) ((Fn.I_post du_weak hV.neg hK.ok hs hi hf hx).mono
    fun _ hz r h1 h2 => hz.encl (du_weak (T := T)).D_le (du_weak (T := T)).U_ge ⟨r, ⟨h1, h2⟩, rfl⟩)

/-- With a correctly rounded library and the best constants, the result is the smallest enclosure of these values. -/
theorem C19_smallest_partial (hV : V.Tight) (hs : f.simple = true) (hf : V.FnOk (IsRoundDown T) (IsRoundUp T) f) (hK : Neighbours K)
    (hi : f.unbounded = true → InfBase T) (hx : (γ x ∩ f.dom).Nonempty) :
    V.Returns (f.I K fuel V.P x) fun z => SmallestEnclosure z (f.real '' (γ x ∩ f.dom)) :=
  V.run hV (fun _ h => Fn.I_sim V h f x) ((Fn.I_post du_tight hV.neg hK.ok hs hi hf hx).mono
    fun _ hz => hz.smallest (hx.image _))

/-- C13 for these functions: isotonicity. (For `cos` and `tan` see `C13_cos_not_isotone`, `C13_tan_not_isotone`.) -/
theorem C13_elementary (hV : V.Tight) (hs : f.simple = true) (hf : V.FnOk (IsRoundDown T) (IsRoundUp T) f) (hK : Neighbours K)
    (hi : f.unbounded = true → InfBase T) {x' : Itv T} (hx : (γ x ∩ f.dom).Nonempty) (hxx : γ x ⊆ γ x') :
    V.Returns (f.I K fuel V.P x) fun z => V.Returns (f.I K fuel V.P x') fun z' => γ z ⊆ γ z' :=
  (C19_smallest_partial V hV hs hf hK hi hx).mono fun _ hz =>
    (C19_smallest_partial V hV hs hf hK hi (hx.mono (inter_subset_inter_left _ hxx))).mono fun _ hz' =>
      hz.mono hz' (image_mono (inter_subset_inter_left _ hxx))

/-- In particular it does not leave the closed range of the function, as far as its ends are numbers of the base type. -/
theorem C19_range_partial (hV : V.Tight) (hs : f.simple = true) (hf : V.FnOk (IsRoundDown T) (IsRoundUp T) f) (hK : Neighbours K)
    (hi : f.unbounded = true → InfBase T) (hx : (γ x ∩ f.dom).Nonempty) {p q : EReal} (hp : Representable T p) (hq : Representable T q)
    (hr : ∀ r ∈ f.dom, p ≤ (f.real r : EReal) ∧ (f.real r : EReal) ≤ q) :
    V.Returns (f.I K fuel V.P x) fun z => ∀ r ∈ γ z, p ≤ (r : EReal) ∧ (r : EReal) ≤ q := by
  obtain ⟨t, ht⟩ := hp
  obtain ⟨s, hs'⟩ := hq
  refine (C19_smallest_partial V hV hs hf hK hi hx).mono fun z hz r hrz => ?_
  obtain ⟨l, u, h1, h2, h3, h4⟩ := (hz.2 ⟨t, s⟩ (by rintro _ ⟨w, hw, rfl⟩; exact ⟨p, q, ht, hs', hr w hw.2⟩)).1 hrz
  cases ht.symm.trans h1; cases hs'.symm.trans h2
  exact ⟨h3, h4⟩

theorem Fn.I_outside (hs : f.simple = true) (hx : (γ x).Nonempty) (hd : γ x ∩ f.dom = ∅)
    (hp : f = .atanh → -1 ∉ γ x ∧ 1 ∉ γ x) : f.I K fuel V.pp x = emptyI V.C := by
  obtain ⟨r₀, hr₀⟩ := hx
  obtain ⟨a, b, ix⟩ := has_of_mem hr₀
  have hS : ∀ r, r ∈ γ x ↔ a ≤ r ∧ (r : EReal) ≤ b := fun r => by rw [ix.gamma]; exact Iff.rfl
  have hno : ∀ r ∈ γ x, r ∉ f.dom := fun r h1 h2 => by
    have : r ∈ γ x ∩ f.dom := ⟨h1, h2⟩
    rw [hd] at this; exact this
  have hr := (hS r₀).1 hr₀
  -- a point below which nothing of the domain lies, a point above
  have key : ∀ p : ℝ, p ∉ γ x → r₀ < p → b < p := fun p h1 h2 => by
    by_contra hc
    exact h1 ((hS p).2 ⟨hr.1.trans (by exact_mod_cast h2.le), not_lt.1 hc⟩)
  have key' : ∀ p : ℝ, p ∉ γ x → p < r₀ → (p : EReal) < a := fun p h1 h2 => by
    by_contra hc
    exact h1 ((hS p).2 ⟨not_lt.1 hc, le_trans (by exact_mod_cast h2.le) hr.2⟩)
  have ends : -1 ∉ γ x → 1 ∉ γ x → (∀ r ∈ γ x, ¬ (-1 < r ∧ r < 1)) →
      decide (b < -1) = true ∨ decide (1 < a) = true := fun h1 h2 h3 => by
    rcases lt_trichotomy r₀ (-1) with h | h | h
    · left; have := key (-1) h1 h; rw [m1_coe] at this; simpa using this
    · exact absurd (h ▸ hr₀) h1
    · rcases lt_trichotomy r₀ 1 with h' | h' | h'
      · exact absurd ⟨h, h'⟩ (h3 r₀ hr₀)
      · exact absurd (h' ▸ hr₀) h2
      · right; have := key' 1 h2 h'; simpa using this
  have arc : f.dom = Icc (-1) 1 → decide (b < -1) = true ∨ decide (1 < a) = true := fun hdm =>
    ends (fun h => hno _ h (by rw [hdm]; norm_num)) (fun h => hno _ h (by rw [hdm]; norm_num))
      fun r h h' => hno r h (by rw [hdm]; exact ⟨h'.1.le, h'.2.le⟩)
  cases f with
  | log =>
    have hb : ¬ 0 < b := fun h => by
      by_cases h0 : 0 < r₀
      · exact hno r₀ hr₀ h0
      · obtain ⟨p, h1, h2⟩ := EReal.lt_iff_exists_real_btwn.1 h
        have h1' : 0 < p := by exact_mod_cast h1
        exact hno p ((hS p).2 ⟨hr.1.trans (by exact_mod_cast (not_lt.1 h0).trans h1'.le), h2.le⟩) h1'
    change logI V.pp x = _
    unfold logI
    rw [pure_chk, ix.test V.chk, isPos_eq ix.up]
    simp only [hb]; rfl
  | asin =>
    change asinI K V.pp x = _
    unfold asinI
    rw [pure_chk, ix.test V.chk, lt_eq ix.up val_negOne, lt_eq val_one ix.lo]
    rcases arc rfl with h | h <;> rw [h]
    · rfl
    · cases decide (b < -1) <;> rfl
  | acos =>
    change acosI K V.pp x = _
    unfold acosI
    rw [pure_chk, ix.test V.chk, lt_eq ix.up val_negOne, lt_eq val_one ix.lo]
    rcases arc rfl with h | h <;> rw [h]
    · rfl
    · cases decide (b < -1) <;> rfl
  | atanh =>
    change atanhI V.pp x = _
    unfold atanhI
    rw [pure_chk, ix.test V.chk, lt_eq ix.up val_negOne, lt_eq val_one ix.lo]
    rcases ends (hp rfl).1 (hp rfl).2 (fun r h h' => hno r h h') with h | h <;> rw [h]
    · rfl
    · cases decide (b < -1) <;> rfl
  | acosh =>
    have hb : b < 1 := by
      rcases lt_or_ge r₀ 1 with h | h
      · have := key 1 (fun h' => hno 1 h' (mem_Ici.2 le_rfl)) h; simpa using this
      · exact absurd h (hno r₀ hr₀)
    change acoshI V.pp x = _
    unfold acoshI
    rw [pure_chk, ix.test V.chk, lt_eq ix.up val_one]
    simp only [hb]; rfl
  | exp => exact absurd (mem_univ _) (hno r₀ hr₀)
  | atan => exact absurd (mem_univ _) (hno r₀ hr₀)
  | sinh => exact absurd (mem_univ _) (hno r₀ hr₀)
  | cosh => exact absurd (mem_univ _) (hno r₀ hr₀)
  | tanh => exact absurd (mem_univ _) (hno r₀ hr₀)
  | asinh => exact absurd (mem_univ _) (hno r₀ hr₀)
  | sin => cases hs
  | cos => cases hs
  | tan => cases hs

/-- Arguments outside of the domain give the empty interval. For `atanh` the ends of the domain have to be excluded, see
`C19_atanh_pole`. -/
theorem C19_outside (hV : V.Directed) (hs : f.simple = true) (hx : (γ x).Nonempty) (hd : γ x ∩ f.dom = ∅)
    (hp : f = .atanh → -1 ∉ γ x ∧ 1 ∉ γ x) : V.YieldsEmpty (f.I K fuel V.P x) :=
  V.runEmpty hV (fun _ h => Fn.I_sim V h f x) (Fn.I_outside V hs hx hd hp)

/-- `atanh([-2, -1])` is not recognised as lying outside of the domain `(-1, 1)`: with a library for which `atanh(-1)` is
minus infinity, the result has both bounds infinite, and is not the empty interval. -/
theorem C19_atanh_pole (hV : V.Directed) (hi : InfBase T) (hk : V.kind = .std) {c : T}
    (hc : V.lib .atanh .up (Num.lit (-1)) = some c) (hv : val c = some ⊥) :
    V.Returns (atanhI V.P (litI (-2) (-1))) fun z => ¬ Void z ∧ γ z = ∅ := by
  refine V.run hV (fun _ h => atanhI_sim h _) ?_
  obtain ⟨n, hn, hn'⟩ := (V.infLaws hi).negInf
  have h2 : val (litI (-2) (-1) : Itv T).lower = some ((-2 : ℝ) : EReal) := by
    have := NumLaws.lit (T := T) (-2) (by decide); push_cast at this; exact this
  have h1 : val (litI (-2) (-1) : Itv T).upper = some ((-1 : ℝ) : EReal) := by
    have := NumLaws.lit (T := T) (-1) (by decide); push_cast at this; exact this
  have ix : Has (litI (-2) (-1) : Itv T) ((-2 : ℝ) : EReal) ((-1 : ℝ) : EReal) :=
    ⟨h2, h1, EReal.coe_ne_top _, EReal.coe_ne_bot _, EReal.coe_le_coe_iff.2 (by norm_num)⟩
  have : atanhI V.pp (litI (-2) (-1)) = .ok ⟨n, c⟩ := by
    unfold atanhI
    rw [pure_chk, ix.test V.chk, lt_eq ix.up val_negOne, lt_eq val_one ix.lo, le_eq ix.lo val_negOne, le_eq val_one ix.up]
    have a1 : ¬ ((-1 : ℝ) : EReal) < -1 := by rw [m1_coe]; exact lt_irrefl _
    have a2 : ¬ (1 : EReal) < ((-2 : ℝ) : EReal) := not_lt.2 (by
      have : ((-2 : ℝ) : EReal) ≤ ((1 : ℝ) : EReal) := EReal.coe_le_coe_iff.2 (by norm_num)
      simpa using this)
    have a3 : ((-2 : ℝ) : EReal) ≤ -1 := le_m1.2 (by norm_num)
    have a4 : ¬ (1 : EReal) ≤ ((-1 : ℝ) : EReal) := not_le.2 (by
      have : ((-1 : ℝ) : EReal) < ((1 : ℝ) : EReal) := EReal.coe_lt_coe_iff.2 (by norm_num)
      simpa using this)
    simp only [a1, a2, a3, a4, decide_true, decide_false]
    change ((lift V.C.negInf : Res T) >>= fun l => V.B.fnUp .atanh (Num.lit (-1)) >>= fun u => (pure ⟨l, u⟩ : Res (Itv T))) = _
    rw [show (lift V.C.negInf : Res T) = .ok n from hn]
    have : V.B.fnUp .atanh (Num.lit (-1)) = .ok c := by
      unfold Env.B; rw [hk]; change ofOpt _ = _; rw [hc]; rfl
    rw [this]; rfl
  refine Post.of_eq this ⟨fun h => absurd (h _ _ hn' hv) (lt_irrefl _), ?_⟩
  ext r
  simp only [mem_empty_iff_false, iff_false]
  rintro ⟨l, u, k1, k2, k3, k4⟩
  cases hv.symm.trans k2
  exact absurd (le_bot_iff.1 k4) (EReal.coe_ne_bot _)

/-! ## `rounded_transc_opp` -/

/-- What `rounded_transc_opp` takes for the function rounded down: an upper bound. -/
theorem opp_down (hV : V.Directed) (hk : V.kind = .opp) (hf : f.negForm = true) {t : T} {r : ℝ} (ht : val t = some (r : EReal))
    (hl : ∀ (a : T) x e, val a = some x → f.Ext x e → Approx T LeB GeB (fun r => V.lib f r a) e) (hr : r ∈ f.dom)
    (hrep : ¬ Representable T (f.real r : EReal)) :
    Post True (V.B.fnDown f t) fun c => ∃ z, val c = some z ∧ (f.real r : EReal) < z := by
  obtain ⟨c, z, h1, h2, _, h3⟩ := hl t _ _ ht (.inl ⟨r, hr, rfl, rfl⟩) .up
  obtain ⟨n, hn⟩ := Option.ne_none_iff_exists'.1 (hV.neg c)
  obtain ⟨m, hm⟩ := Option.ne_none_iff_exists'.1 (hV.neg n)
  have : V.B.fnDown f t = .ok m := by
    unfold Env.B
    rw [hk]
    change (if f.negForm then _ else _) = _
    rw [hf, show V.lib f .up t = some c from h1]
    change (ofOpt (Num.neg c) >>= fun nv => ofOpt (Num.neg nv)) = _
    rw [hn]
    change ofOpt (Num.neg n) = _
    rw [hm]; rfl
  refine Post.of_eq this ⟨z, by rw [NumLaws.neg _ _ hm, NumLaws.neg _ _ hn, h2]; simp, ?_⟩
  exact lt_of_le_of_ne (h3 rfl) fun h => hrep (h ▸ ⟨c, h2⟩)

/-- The claim fails for the functions of `Fn.negForm` with `rounded_transc_opp`, whatever the library, at every number
whose image is not a number of the base type: atan, sinh and tanh. -/
theorem C19_opp (hV : V.Directed) (hk : V.kind = .opp) (hf : f = .atan ∨ f = .sinh ∨ f = .tanh) {t : T} {r : ℝ}
    (ht : val t = some (r : EReal))
    (hl : ∀ (a : T) x e, val a = some x → f.Ext x e → Approx T LeB GeB (fun r => V.lib f r a) e)
    (hrep : ¬ Representable T (f.real r : EReal)) :
    V.Returns (f.I K fuel V.P ⟨t, t⟩) fun z => r ∈ γ (⟨t, t⟩ : Itv T) ∧ f.real r ∉ γ z := by
  have ix := has_single ht
  have hmem : r ∈ γ (⟨t, t⟩ : Itv T) := ⟨_, _, ht, ht, le_rfl, le_rfl⟩
  have hneg : f.negForm = true := by rcases hf with rfl | rfl | rfl <;> rfl
  have hdom : r ∈ f.dom := by rcases hf with rfl | rfl | rfl <;> exact mem_univ _
  have he : f.I K fuel V.pp ⟨t, t⟩ = increasingI f V.pp ⟨t, t⟩ := by rcases hf with rfl | rfl | rfl <;> rfl
  refine V.run hV (fun _ h => Fn.I_sim V h f _) ?_
  rw [he]
  unfold increasingI
  rw [pure_chk, res_if_false (ix.test V.chk), pure_scope, pure_rnd]
  have h2 : Post True (V.B.fnUp f t) fun _ => True := by
    obtain ⟨c, z, h1, -⟩ := hl t _ _ ht (.inl ⟨r, hdom, rfl, rfl⟩) .up
    unfold Env.B
    rw [hk]
    exact Post.of_eq (a := c) (by change ofOpt _ = _; rw [show V.lib f .up t = some c from h1]; rfl) trivial
  refine (Post.pair (opp_down V hV hk hneg ht hl hdom hrep) h2).bind fun p hp => ⟨hmem, ?_⟩
  obtain ⟨z, hz, hlt⟩ := hp.1
  rintro ⟨l, u, k1, k2, k3, k4⟩
  cases hz.symm.trans k1
  exact absurd k3 (not_le.2 hlt)

/-- The same for asin inside its domain, -/
theorem C19_opp_asin (hV : V.Directed) (hk : V.kind = .opp) {t : T} {r : ℝ} (ht : val t = some (r : EReal))
    (hl : ∀ (a : T) x e, val a = some x → Fn.asin.Ext x e → Approx T LeB GeB (fun r => V.lib .asin r a) e)
    (h1 : -1 < r) (h2 : r < 1) (hrep : ¬ Representable T (Real.arcsin r : EReal)) :
    V.Returns (asinI K V.P ⟨t, t⟩) fun z => r ∈ γ (⟨t, t⟩ : Itv T) ∧ Real.arcsin r ∉ γ z := by
  have ix := has_single ht
  have hmem : r ∈ γ (⟨t, t⟩ : Itv T) := ⟨_, _, ht, ht, le_rfl, le_rfl⟩
  have hdom : r ∈ Fn.asin.dom := ⟨h1.le, h2.le⟩
  refine V.run hV (fun _ h => asinI_sim h K _) ?_
  unfold asinI
  rw [pure_chk, ix.test V.chk, lt_eq ix.up val_negOne, lt_eq val_one ix.lo, le_eq ix.lo val_negOne, le_eq val_one ix.up]
  have a1 : ¬ (r : EReal) < -1 := not_lt.2 (m1_le.2 h1.le)
  have a2 : ¬ (1 : EReal) < (r : EReal) := not_lt.2 (by exact_mod_cast h2.le)
  have a3 : ¬ (r : EReal) ≤ -1 := not_le.2 (m1_lt.2 h1)
  have a4 : ¬ (1 : EReal) ≤ (r : EReal) := not_le.2 (by exact_mod_cast h2)
  simp only [a1, a2, a3, a4, decide_false]
  change Post True (V.B.fnDown .asin t >>= fun l => V.B.fnUp .asin t >>= fun u => (pure ⟨l, u⟩ : Res (Itv T))) _
  obtain ⟨c, z, k1, -⟩ := hl t _ _ ht (.inl ⟨r, hdom, rfl, rfl⟩) .up
  have k2 : V.B.fnUp .asin t = .ok c := by unfold Env.B; rw [hk]; change ofOpt _ = _; rw [show V.lib .asin .up t = some c from k1]; rfl
  refine (opp_down V hV hk rfl ht hl hdom hrep).bind fun l hlow => ?_
  rw [k2]
  refine ⟨hmem, ?_⟩
  obtain ⟨z, hz, hlt⟩ := hlow
  rintro ⟨l, u, k1, k2, k3, k4⟩
  cases hz.symm.trans k1
  exact absurd k3 (not_le.2 hlt)

/-- and for acosh above 1. -/
theorem C19_opp_acosh (hV : V.Directed) (hk : V.kind = .opp) {t : T} {r : ℝ} (ht : val t = some (r : EReal))
    (hl : ∀ (a : T) x e, val a = some x → Fn.acosh.Ext x e → Approx T LeB GeB (fun r => V.lib .acosh r a) e)
    (h1 : 1 < r) (hrep : ¬ Representable T (Real.arcosh r : EReal)) :
    V.Returns (acoshI V.P ⟨t, t⟩) fun z => r ∈ γ (⟨t, t⟩ : Itv T) ∧ Real.arcosh r ∉ γ z := by
  have ix := has_single ht
  have hmem : r ∈ γ (⟨t, t⟩ : Itv T) := ⟨_, _, ht, ht, le_rfl, le_rfl⟩
  have hdom : r ∈ Fn.acosh.dom := h1.le
  refine V.run hV (fun _ h => acoshI_sim h _) ?_
  unfold acoshI
  rw [pure_chk, ix.test V.chk, lt_eq ix.up val_one, le_eq ix.lo val_one]
  have a1 : ¬ (r : EReal) < 1 := not_lt.2 (by exact_mod_cast h1.le)
  have a2 : ¬ (r : EReal) ≤ 1 := not_le.2 (by exact_mod_cast h1)
  simp only [a1, a2, decide_false]
  change Post True (V.B.fnDown .acosh t >>= fun l => V.B.fnUp .acosh t >>= fun u => (pure ⟨l, u⟩ : Res (Itv T))) _
  obtain ⟨c, z, k1, -⟩ := hl t _ _ ht (.inl ⟨r, hdom, rfl, rfl⟩) .up
  have k2 : V.B.fnUp .acosh t = .ok c := by unfold Env.B; rw [hk]; change ofOpt _ = _; rw [show V.lib .acosh .up t = some c from k1]; rfl
  refine (opp_down V hV hk rfl ht hl hdom hrep).bind fun l hlow => ?_
  rw [k2]
  refine ⟨hmem, ?_⟩
  obtain ⟨z, hz, hlt⟩ := hlow
  rintro ⟨l, u, k1, k2, k3, k4⟩
  cases hz.symm.trans k1
  exact absurd k3 (not_le.2 hlt)

/-- Numbers of a floating-point format are rational. -/
theorem not_representable_of_irrational {f : Fmt} {r : ℝ} (h : Irrational r) : ¬ Representable (Fl f) (r : EReal) := by
  rw [representable_iff]
  rintro (h' | h' | ⟨q, -, h'⟩)
  · exact absurd h' (EReal.coe_ne_bot _)
  · exact absurd h' (EReal.coe_ne_top _)
  · exact h ⟨q, (EReal.coe_eq_coe_iff.1 h').symm⟩

/-- `atan([1, 1])` for `double`, with `rounded_transc_opp` over a correctly rounded library, does not contain `π/4`. -/
theorem C19_opp_atan_one : dblOpp.Returns (atanI dblOpp.P (litI 1 1)) fun z => (1 : ℝ) ∈ γ (litI 1 1 : Itv (Fl Fmt.double)) ∧ Real.arctan 1 ∉ γ z := by
  have ht : val (Num.lit 1 : Fl Fmt.double) = some ((1 : ℝ) : EReal) := by
    have := NumLaws.lit (T := Fl Fmt.double) 1 (by decide); push_cast at this; exact this
  refine C19_opp (f := .atan) (K := piGeneric) (fuel := 0) dblOpp dblOpp_tight.directed rfl (.inl rfl) ht (fun a x e ha he r => ?_) ?_
  · obtain ⟨c, z, h1, h2, h3, h4⟩ := Rounds.approx (op := fun r => idealLib _ Fn.atan r a) (fun r => idealLib_eq ha he r) (fun r => roundE_rounds r e) r
    exact ⟨c, z, h1, h2, fun h => (h3 h).2.1, fun h => (h4 h).2.1⟩
  · refine not_representable_of_irrational ?_
    change Irrational (Real.arctan 1)
    rw [Real.arctan_one]
    have := irrational_pi.div_ratCast (q := 4) (by norm_num)
    simpa using this

/-! ## Instances -/

example (fuel : Nat) (f : Fn) (hs : f.simple = true) {x : Itv (Fl Fmt.double)} (hx : (γ x ∩ f.dom).Nonempty) :=
  C19_enclose_partial (fuel := fuel) dblStd dblStd_tight.directed hs (dblStd_fn f).directed (C21_double .near).brackets (fun _ => fl_inf) hx
example (fuel : Nat) (f : Fn) (hs : f.simple = true) {x : Itv (Fl Fmt.double)} (hx : (γ x ∩ f.dom).Nonempty) :=
  C19_smallest_partial (fuel := fuel) dblStd dblStd_tight hs (dblStd_fn f) (C21_double .near) (fun _ => fl_inf) hx
example (fuel : Nat) (f : Fn) (hs : f.simple = true) {x x' : Itv (Fl Fmt.double)} (hx : (γ x ∩ f.dom).Nonempty) (h : γ x ⊆ γ x') :=
  C13_elementary (fuel := fuel) dblStd dblStd_tight hs (dblStd_fn f) (C21_double .near) (fun _ => fl_inf) hx h
/-- `rounded_transc_opp` is right for the other functions. -/
example (fuel : Nat) {x : Itv (Fl Fmt.double)} (hx : (γ x ∩ Fn.exp.dom).Nonempty) :=
  C19_smallest_partial (K := piDouble .near) (fuel := fuel) dblOpp dblOpp_tight rfl (dblOpp.ideal_ok .exp rfl (.inr ⟨rfl, rfl⟩)) (C21_double .near)
    (fun h => by cases h) hx
/-- `tanh` stays in `[-1, 1]`. -/
example (fuel : Nat) {x : Itv (Fl Fmt.double)} (hx : (γ x ∩ Fn.tanh.dom).Nonempty) :=
  C19_range_partial (K := piDouble .near) (fuel := fuel) dblStd dblStd_tight rfl (dblStd_fn .tanh) (C21_double .near) (fun h => by cases h) hx
    ⟨_, val_negOne⟩ ⟨_, val_one⟩ fun r _ => ⟨m1_le.2 (tanh_mem r).1.le, by exact_mod_cast (tanh_mem r).2.le⟩
example : (γ (litI (-1) 2 : Itv (Fl Fmt.double)) ∩ Fn.log.dom).Nonempty := ⟨1, in_lit, by norm_num [Fn.dom]⟩
example := C19_outside (K := piDouble .near) (fuel := 0) (f := .acosh) (x := litI (-3) 0) dblStd dblStd_tight.directed rfl ne_lit
  (by
    ext r
    simp only [mem_inter_iff, mem_empty_iff_false, iff_false, mem_litI (T := Fl Fmt.double) (a := -3) (b := 0) (r := r) (by decide) (by decide)]
    rintro ⟨⟨-, h⟩, h'⟩
    have : (1 : ℝ) ≤ r := h'
    norm_num at h
    linarith) (fun h => by cases h)

end BI
