import Verif.Proofs.Refine
import Verif.Spec.Twin
import Verif.Props.Trig
/-! # Two correctly rounded configurations of one base type -/

set_option linter.unusedSectionVars false

namespace BI.Twin
open Set BI

section
variable {T : Type} [Num T] [Val T] [NumLaws T] {z z' : Itv T} {a b c d : EReal}

/-- Both intervals are proper and have the same bounds. -/
def Same (z z' : Itv T) : Prop := ∃ a b, Has z a b ∧ Has z' a b

theorem Same.gamma (h : Same z z') : γ z = γ z' := by
  obtain ⟨a, b, h1, h2⟩ := h
  rw [h1.gamma, h2.gamma]

theorem Same.val (h : Same z z') : BI.val z.lower = BI.val z'.lower ∧ BI.val z.upper = BI.val z'.upper := by
  obtain ⟨a, b, h1, h2⟩ := h
  exact ⟨h1.lo.trans h2.lo.symm, h1.up.trans h2.up.symm⟩

theorem Same.of_gamma (h : γ z = γ z') (hn : (γ z).Nonempty) : Same z z' := by
  obtain ⟨a, b, h1⟩ := has_of_nonempty hn
  obtain ⟨a', b', h2, h3, h4⟩ := h1.of_gamma_subset h.subset
  obtain ⟨a₁, b₁, h1', h3', h4'⟩ := h2.of_gamma_subset h.symm.subset
  obtain ⟨rfl, rfl⟩ := h1.unique h1'
  obtain rfl := le_antisymm h3 h3'
  obtain rfl := le_antisymm h4 h4'
  exact ⟨_, _, h1, h2⟩

theorem down_unique {e z z' : EReal} (h : IsRoundDown T z e) (h' : IsRoundDown T z' e) : z = z' :=
  le_antisymm (h'.2.2 _ h.1 h.2.1) (h.2.2 _ h'.1 h'.2.1)

theorem up_unique {e z z' : EReal} (h : IsRoundUp T z e) (h' : IsRoundUp T z' e) : z = z' :=
  le_antisymm (h.2.2 _ h'.1 h'.2.1) (h'.2.2 _ h.1 h.2.1)

theorem Same.of_bnd {S : Set ℝ} (hS : S.Nonempty) (h : Bnd (IsRoundDown T) (IsRoundUp T) S z)
    (h' : Bnd (IsRoundDown T) (IsRoundUp T) S z') : Same z z' := by
  obtain ⟨p, q, hz⟩ := h.has du_tight hS
  obtain ⟨p', q', hz'⟩ := h'.has du_tight hS
  obtain ⟨l, u, e₁, e₂, h1, h2, h3, h4, h5, h6⟩ := h
  obtain ⟨l', u', e₁', e₂', h1', h2', h3', h4', h5', h6'⟩ := h'
  cases h3.unique h3'; cases h4.unique h4'
  cases hz.lo.symm.trans h1; cases hz.up.symm.trans h2
  cases hz'.lo.symm.trans h1'; cases hz'.up.symm.trans h2'
  cases down_unique h5 h5'; cases up_unique h6 h6'
  exact ⟨_, _, hz, hz'⟩

theorem Same.smallest {S : Set ℝ} (hS : S.Nonempty) (h : SmallestEnclosure z S) (h' : SmallestEnclosure z' S) : Same z z' :=
  .of_gamma (subset_antisymm (h.2 _ h'.1).1 (h'.2 _ h.1).1) (hS.mono h.1)
end

section
variable {T : Type} [Num T] [Val T] [NumLaws T] {V W : Env T} {K K' : PiConst T} {x x' y y' : Itv T} {a b c d : EReal}

/-- The steps of `fmod`. -/
theorem fmod_parts (hV : V.Tight) (hi : V.IntOk) {p : ℝ} (hx : Has x p b) (hy : Has y c d) (hc : 1 ≤ c) :
    ∃ (tmp ny : Itv T) (k : ℤ), fmodAux true V.pp x y = .ok tmp ∧
      (∃ v : ℝ, IsRoundDown T v (p / if p < 0 then c else d) ∧ k = ⌊v⌋) ∧
      Bnd (IsRoundDown T) (IsRoundUp T) (image2 (· * ·) {(k : ℝ)} (γ y)) ny ∧
      Bnd (IsRoundDown T) (IsRoundUp T) (image2 (· - ·) (γ x) (γ ny)) tmp := by
  have hc0 : 0 < c := lt_of_lt_of_le zero_lt_one hc
  have hd0 : 0 < d := hc0.trans_le hy.le
  have hA := hV.dir du_tight
  have hb : val (if isNeg x.lower then y.lower else y.upper) = some (if p < 0 then c else d) := by
    rw [isNeg_eq hx.lo]
    by_cases h : p < 0
    · have h' : (p : EReal) < 0 := by exact_mod_cast h
      simp [h, h', hy.lo]
    · have h' : ¬ (p : EReal) < 0 := by exact_mod_cast h
      simp [h, h', hy.up]
  have hw : (if p < 0 then c else d) ≠ 0 := by split_ifs; exacts [hc0.ne', hd0.ne']
  obtain ⟨n, hn, k, hk, hv, -⟩ := (fmod_int hV hi hx.lo hb hw (quot_low hx hy hc)).total
  obtain ⟨ny, hny, bny⟩ := (mulTI_post hA.op V.chk hk hy).total
  obtain ⟨l, u, iy⟩ := bny.has du_tight ((singleton_nonempty _).image2 hy.nonempty)
  obtain ⟨tmp, ht, bt⟩ := (subII_post hA.op V.chk hx iy).total
  refine ⟨tmp, ny, k, ?_, hv, bny, bt⟩
  unfold fmodAux
  rw [pure_chk, res_if_false (hx.test2 V.chk hy)]
  change (V.B.divDown x.lower (if isNeg x.lower then y.lower else y.upper) >>= fun d => V.B.intDown d >>= _) = _
  rw [← bind_assoc, hn]
  change (mulTI V.pp n y >>= _) = _
  rw [show mulTI V.pp n y = .ok ny from hny]
  change (subII V.pp x ny >>= _) = _
  rw [show subII V.pp x ny = .ok tmp from ht]
  rfl

theorem fmod_twin (hV : V.Tight) (hW : W.Tight) (hi : V.IntOk) (hi' : W.IntOk) {p : ℝ} (hx : Has x p b) (hx' : Has x' p b)
    (hy : Has y c d) (hy' : Has y' c d) (hc : 1 ≤ c) :
    ∃ tmp tmp', fmodAux true V.pp x y = .ok tmp ∧ fmodAux true W.pp x' y' = .ok tmp' ∧ Same tmp tmp' := by
  obtain ⟨tmp, ny, k, h1, ⟨v, h2, rfl⟩, h3, h4⟩ := fmod_parts hV hi hx hy hc
  obtain ⟨tmp', ny', k', h1', ⟨v', h2', rfl⟩, h3', h4'⟩ := fmod_parts hW hi' hx' hy' hc
  obtain rfl : v = v' := by exact_mod_cast down_unique h2 h2'
  rw [hy'.gamma, ← hy.gamma] at h3'
  have := Same.of_bnd ((singleton_nonempty _).image2 hy.nonempty) h3 h3'
  rw [hx'.gamma, ← hx.gamma, ← this.gamma] at h4'
  obtain ⟨l, u, k, -⟩ := this
  exact ⟨tmp, tmp', h1, h1', .of_bnd (hx.nonempty.image2 k.nonempty) h4 h4'⟩

/-- What `cos`, `sin` and `tan` ask of a configuration. -/
structure Good (V : Env T) (f : Fn) : Prop where
  tight : V.Tight
  int : V.IntOk
  fn : V.FnOk (IsRoundDown T) (IsRoundUp T) f

/-- Constants with the same values. -/
structure SameK (K K' : PiConst T) : Prop where
  pi : Same (piI K) (piI K')
  half : Same (piHalfI K) (piHalfI K')
  twice : Same (piTwiceI K) (piTwiceI K')

theorem SameK.of (h : Neighbours K) (h' : Neighbours K') : SameK K K' :=
  ⟨.smallest (singleton_nonempty _) h.1 h'.1, .smallest (singleton_nonempty _) h.2.1 h'.2.1,
    .smallest (singleton_nonempty _) h.2.2 h'.2.2⟩

theorem cos_twin (hV : Good V .cos) (hW : Good W .cos) (hI : IeeeBase T) (hB : Brackets K) (hB' : Brackets K') (hP : PiPos K)
    (hP' : PiPos K') (hK : SameK K K') (fuel : ℕ) : ∀ (same same' : Bool) (x x' : Itv T) (a b : EReal), Has x a b → Has x' a b →
      ∀ z, cosAux K same fuel V.pp x = .ok z → ∃ z', cosAux K' same' fuel W.pp x' = .ok z' ∧ Same z z' := by
  have hA := hV.tight.dir du_tight
  have hA' := hW.tight.dir du_tight
  obtain ⟨c, d, hy, hc, -, -, hmem⟩ := period_has hB.ok.piTwiceLower hB.ok.piTwiceUpper hP.piTwiceLower
  obtain ⟨c₁, d₁, hy₁, hy'⟩ := hK.twice
  obtain ⟨rfl, rfl⟩ := hy.unique hy₁
  obtain ⟨pl, pu, hp, hp'⟩ := hK.pi
  have unit : Same (⟨Num.lit (-1), Num.lit 1⟩ : Itv T) ⟨Num.lit (-1), Num.lit 1⟩ := .of_gamma rfl (by
    rw [lit_unit]; exact nonempty_Icc.2 (by norm_num))
  induction fuel with
  | zero => intro same same' x x' a b _ _ z h; cases h
  | succ fuel ih =>
    intro same same' x x' a b hx hx' z hz
    by_cases ha : a = ⊥
    · subst ha
      cases (cos_bot hV.tight hI hB.ok hP hx same fuel).symm.trans hz
      exact ⟨_, cos_bot hW.tight hI hB'.ok hP' hx' same' fuel, unit⟩
    obtain ⟨p, rfl⟩ : ∃ p : ℝ, a = p := ⟨a.toReal, (EReal.coe_toReal hx.ne_top ha).symm⟩
    obtain ⟨tmp, tmp', h1, h1', l', u, it, it'⟩ := fmod_twin hV.tight hW.tight hV.int hW.int hx hx' hy hy' hc
    obtain ⟨l, rfl, hl0⟩ : ∃ l : ℝ, l' = l ∧ 0 ≤ l := by
      obtain ⟨tmp₁, k1, -, l, k2, k3, -⟩ := fmod_period hV.tight hV.int hx rfl hy hc
      cases h1.symm.trans k1
      cases it.lo.symm.trans k2
      exact ⟨l, rfl, k3⟩
    unfold cosAux at hz ⊢
    rw [pure_chk, res_if_false (hx.test V.chk)] at hz
    rw [pure_chk, res_if_false (hx'.test W.chk)]
    change (fmodAux true V.pp x (piTwiceI K) >>= _) = _ at hz
    change ∃ z', (fmodAux true W.pp x' (piTwiceI K') >>= _) = _ ∧ _
    rw [show fmodAux true V.pp x (piTwiceI K) = .ok tmp from h1] at hz
    rw [show fmodAux true W.pp x' (piTwiceI K') = .ok tmp' from h1']
    change (width V.pp tmp >>= _) = _ at hz
    change ∃ z', (width W.pp tmp' >>= _) = _ ∧ _
    have wid : ∀ {U : Env T} {t : Itv T}, U.Tight → Has t l u → ∃ w z, width U.pp t = .ok w ∧ val w = some z ∧ IsRoundUp T z (u - l) := by
      intro U t hU ht
      unfold width
      rw [pure_chk, res_if_false (ht.test U.chk), pure_scope, pure_rnd]
      obtain ⟨w, h1, z, h2, h3⟩ := ((hU.dir du_tight).subUp _ _ _ _ ht.up ht.lo ⟨.inr (EReal.coe_ne_top _), .inr (EReal.coe_ne_bot _)⟩).total
      exact ⟨w, z, h1, h2, h3⟩
    obtain ⟨w, q, hw, vw, rw₁⟩ := wid hV.tight it
    obtain ⟨w', q', hw', vw', rw₂⟩ := wid hW.tight it'
    obtain rfl := up_unique rw₁ rw₂
    rw [hw] at hz
    rw [hw']
    change (if Num.le K.piTwiceLower w then _ else if Num.le K.piUpper tmp.lower then _ else if Num.le tmp.upper K.piLower then _ else
      if Num.le tmp.upper K.piTwiceLower then _ else _) = _ at hz
    change ∃ z', (if Num.le K'.piTwiceLower w' then _ else if Num.le K'.piUpper tmp'.lower then _ else if Num.le tmp'.upper K'.piLower then _
      else if Num.le tmp'.upper K'.piTwiceLower then _ else _) = _ ∧ _
    have e1 : val K.piTwiceLower = some c := hy.lo
    have e2 : val K.piUpper = some pu := hp.up
    have e3 : val K.piLower = some pl := hp.lo
    have e1' : val K'.piTwiceLower = some c := hy'.lo
    have e2' : val K'.piUpper = some pu := hp'.up
    have e3' : val K'.piLower = some pl := hp'.lo
    rw [le_eq e1 vw, le_eq e2 it.lo, le_eq it.up e3, le_eq it.up e1] at hz
    rw [le_eq e1' vw', le_eq e2' it'.lo, le_eq it'.up e3', le_eq it'.up e1']
    simp only [decide_eq_true_eq] at hz ⊢
    split_ifs at hz ⊢ with g1 g2 g3 g4
    · cases hz; exact ⟨_, rfl, unit⟩
    · change (subII V.pp tmp (piI K) >>= _) = _ at hz
      change ∃ z', (subII W.pp tmp' (piI K') >>= _) = _ ∧ _
      obtain ⟨t, ht, bt⟩ := (subII_post hA.op V.chk it hp).total
      obtain ⟨t', ht', bt'⟩ := (subII_post hA'.op W.chk it' hp').total
      rw [it'.gamma, hp'.gamma, ← it.gamma, ← hp.gamma] at bt'
      obtain ⟨tl, tu, jt, jt'⟩ := Same.of_bnd (it.nonempty.image2 hp.nonempty) bt bt'
      rw [show subII V.pp tmp (piI K) = .ok t from ht] at hz
      rw [show subII W.pp tmp' (piI K') = .ok t' from ht']
      change (cosAux K true fuel V.pp t >>= _) = _ at hz
      change ∃ z', (cosAux K' true fuel W.pp t' >>= _) = _ ∧ _
      cases hcs : cosAux K true fuel V.pp t with
      | error e => rw [hcs] at hz; cases hz
      | ok w =>
        obtain ⟨w', hcs', wl, wu, iw, iw'⟩ := ih true true t t' tl tu jt jt' w hcs
        rw [hcs] at hz
        rw [hcs']
        obtain ⟨n, hn, jn⟩ := negI_has hV.tight.neg V.chk iw
        obtain ⟨n', hn', jn'⟩ := negI_has hW.tight.neg W.chk iw'
        change (negI V.C w >>= _) = _ at hz
        change ∃ z', (negI W.C w' >>= _) = _ ∧ _
        rw [hn] at hz
        rw [hn']
        change backI same V.C n = _ at hz
        change ∃ z', backI same' W.C n' = _ ∧ _
        rw [backI_ok V.chk same jn] at hz
        cases hz
        exact ⟨n', backI_ok W.chk same' jn', _, _, jn, jn'⟩
    · have hut : u ≠ ⊤ := fun h => by
        rw [h] at g3; exact hp.ne_top (top_le_iff.1 g3)
      have hub := it.ne_bot
      lift u to ℝ using ⟨hut, hub⟩
      have key : ∀ {U : Env T} {t : Itv T}, Good U .cos → Has t l u → ∃ z : Itv T, (mk2 (U.B.fnDown .cos t.upper) (U.B.fnUp .cos t.lower) : Res (Itv T)) = .ok z ∧
          ∃ e e', val z.lower = some e ∧ val z.upper = some e' ∧ IsRoundDown T e (Real.cos u : ℝ) ∧ IsRoundUp T e' (Real.cos l : ℝ) := by
        intro U t hU ht
        obtain ⟨r, h1, e, h2, h3⟩ := (hU.fn.down du_tight ht.up (.inl ⟨u, mem_univ _, rfl, rfl⟩)).total
        obtain ⟨s, h4, e', h5, h6⟩ := (hU.fn.up du_tight ht.lo (.inl ⟨l, mem_univ _, rfl, rfl⟩)).total
        refine ⟨⟨r, s⟩, ?_, e, e', h2, h5, h3, h6⟩
        unfold mk2; rw [h1, h4]; rfl
      obtain ⟨z₁, k1, e, e', k2, k3, k4, k5⟩ := key hV it
      obtain ⟨z₂, m1, f, f', m2, m3, m4, m5⟩ := key hW it'
      cases down_unique k4 m4; cases up_unique k5 m5
      cases k1.symm.trans hz
      refine ⟨z₂, m1, .of_gamma (by simp only [γ, k2, k3, m2, m3]) ⟨Real.cos l, _, _, k2, k3, k4.2.1.trans ?_, k5.2.1⟩⟩
      have : Real.cos u ≤ Real.cos l := Real.cos_le_cos_of_nonneg_of_le_pi hl0 (by
        obtain ⟨p₁, hp₁, hp₂⟩ := hB.ok.piLower
        cases hp.lo.symm.trans hp₁
        exact_mod_cast g3.trans hp₂) (by exact_mod_cast it.le)
      exact_mod_cast this
    · have hut : u ≠ ⊤ := fun h => by
        rw [h] at g4; exact hy.ne_top (top_le_iff.1 g4)
      have hub := it.ne_bot
      lift u to ℝ using ⟨hut, hub⟩
      have hcb : c ≠ ⊥ := fun h => by rw [h] at g4; exact absurd (le_bot_iff.1 g4) (EReal.coe_ne_bot _)
      have hct := hy.ne_top
      have key : ∀ {U : Env T} {t : Itv T} {k : PiConst T}, Good U .cos → Has t l u → val k.piTwiceLower = some c →
          ∃ (z : Itv T) (m : ℝ), (U.B.subDown k.piTwiceLower t.upper >>= fun d => U.B.fnUp .cos (stdMin d t.lower) >>= fun u =>
            pure (⟨Num.lit (-1), u⟩ : Itv T) : Res (Itv T)) = .ok z ∧ val z.lower = some (-1) ∧
            (∃ e : EReal, IsRoundDown T e (c - u) ∧ (m : EReal) = min e l) ∧ ∃ e', val z.upper = some e' ∧ IsRoundUp T e' (Real.cos m : ℝ) := by
        intro U t k hU ht hk
        obtain ⟨r, h1, e, h2, h3⟩ := ((hU.tight.dir du_tight).subDown _ _ _ _ hk ht.up ⟨.inl hct, .inl hcb⟩).total
        have hm := val_stdMin h2 ht.lo
        have hmt : min e (l : EReal) ≠ ⊤ := ((min_le_right _ _).trans_lt (EReal.coe_lt_top _)).ne
        have h0 : (0 : EReal) ≤ e := h3.2.2 0 ⟨_, val_zero⟩ ((EReal.sub_nonneg (.inr (EReal.coe_ne_top _)) (.inr (EReal.coe_ne_bot _))).2 g4)
        have hmb : min e (l : EReal) ≠ ⊥ := by
          intro h
          have : (0 : EReal) ≤ min e (l : EReal) := le_min h0 (by exact_mod_cast hl0)
          rw [h] at this; exact absurd this (by simp)
        obtain ⟨m, hm'⟩ : ∃ m : ℝ, min e (l : EReal) = m := ⟨_, (EReal.coe_toReal hmt hmb).symm⟩
        rw [hm'] at hm
        obtain ⟨s, h4, e', h5, h6⟩ := (hU.fn.up du_tight hm (.inl ⟨m, mem_univ _, rfl, rfl⟩)).total
        refine ⟨⟨Num.lit (-1), s⟩, m, ?_, val_negOne, ⟨e, h3, hm'.symm⟩, e', h5, h6⟩
        rw [h1]
        change (U.B.fnUp .cos (stdMin r t.lower) >>= _) = _
        rw [h4]; rfl
      obtain ⟨z₁, m₁, k1, k2, ⟨e, k3, k4⟩, f, k5, k6⟩ := key hV it hy.lo
      obtain ⟨z₂, m₂, n1, n2, ⟨e', n3, n4⟩, f', n5, n6⟩ := key hW it' hy'.lo
      cases down_unique k3 n3
      obtain rfl : m₁ = m₂ := by exact_mod_cast k4.trans n4.symm
      cases up_unique k6 n6
      cases k1.symm.trans hz
      refine ⟨z₂, n1, .of_gamma (by simp only [γ, k2, n2, k5, n5]) ⟨Real.cos m₁, _, _, k2, k5, m1_le.2 (Real.neg_one_le_cos _), k6.2.1⟩⟩
    · cases hz; exact ⟨_, rfl, unit⟩

theorem cosI_twin (hV : Good V .cos) (hW : Good W .cos) (hI : IeeeBase T) (hB : Brackets K) (hB' : Brackets K') (hP : PiPos K)
    (hP' : PiPos K') (hK : SameK K K') (same same' : Bool) (hx : Has x a b) (hx' : Has x' a b) :
    ∃ N z z', (∀ fuel ≥ N, cosAux K same fuel V.pp x = .ok z) ∧ (∀ fuel ≥ N, cosAux K' same' fuel W.pp x' = .ok z') ∧ Same z z' ∧
      ∀ r ∈ γ x, Real.cos r ∈ γ z := by
  obtain ⟨N, hN⟩ := cos_post hV.tight hV.int hI du_tight hV.fn hB.ok hP hx
  obtain ⟨z, hz, hz'⟩ := (hN N le_rfl same).total
  obtain ⟨z', h1, h2⟩ := cos_twin hV hW hI hB hB' hP hP' hK N same same' x x' a b hx hx' z hz
  exact ⟨N, z, z', fun _ h => cos_fuel_le hz h, fun _ h => cos_fuel_le h1 h, h2, hz'.1⟩

theorem sinI_twin (hV : Good V .cos) (hW : Good W .cos) (hI : IeeeBase T) (hB : Brackets K) (hB' : Brackets K') (hP : PiPos K)
    (hP' : PiPos K') (hK : SameK K K') (hx : Has x a b) (hx' : Has x' a b) :
    ∃ N z z', (∀ fuel ≥ N, sinI K fuel V.pp x = .ok z) ∧ (∀ fuel ≥ N, sinI K' fuel W.pp x' = .ok z') ∧ Same z z' ∧
      ∀ r ∈ γ x, Real.sin r ∈ γ z := by
  obtain ⟨z₀, N₀, ⟨h₀, -⟩, k₀⟩ := sin_post hV.tight hV.int hI du_tight hV.fn hB.ok hP hx
  have hA := hV.tight.dir du_tight
  have hA' := hW.tight.dir du_tight
  obtain ⟨c, d, hp, hp'⟩ := hK.half
  obtain ⟨t, ht, bt⟩ := (subII_post hA.op V.chk hx hp).total
  obtain ⟨t', ht', bt'⟩ := (subII_post hA'.op W.chk hx' hp').total
  rw [hx'.gamma, hp'.gamma, ← hx.gamma, ← hp.gamma] at bt'
  obtain ⟨tl, tu, jt, jt'⟩ := Same.of_bnd (hx.nonempty.image2 hp.nonempty) bt bt'
  obtain ⟨N, z, z', h1, h2, ⟨l, u, iz, iz'⟩, -⟩ := cosI_twin hV hW hI hB hB' hP hP' hK true true jt jt'
  have k1 : ∀ fuel ≥ N, sinI K fuel V.pp x = .ok z := fun fuel h => by
    unfold sinI
    rw [pure_chk, res_if_false (hx.test V.chk), pure_scope, pure_unprot]
    change (subII V.pp x (piHalfI K) >>= _) = _
    rw [show subII V.pp x (piHalfI K) = .ok t from ht]
    change (cosAux K true fuel V.pp t >>= _) = _
    rw [h1 fuel h]
    exact reItv_ok V.chk iz
  have k2 : ∀ fuel ≥ N, sinI K' fuel W.pp x' = .ok z' := fun fuel h => by
    unfold sinI
    rw [pure_chk, res_if_false (hx'.test W.chk), pure_scope, pure_unprot]
    change (subII W.pp x' (piHalfI K') >>= _) = _
    rw [show subII W.pp x' (piHalfI K') = .ok t' from ht']
    change (cosAux K' true fuel W.pp t' >>= _) = _
    rw [h2 fuel h]
    exact reItv_ok W.chk iz'
  refine ⟨N, z, z', k1, k2, ⟨l, u, iz, iz'⟩, ?_⟩
  cases (k1 (max N N₀) (le_max_left _ _)).symm.trans (k₀ (max N N₀) (le_max_right _ _))
  exact h₀

theorem tanI_twin (hV : Good V .tan) (hW : Good W .tan) (hI : IeeeBase T) (hB : Brackets K) (hP : PiPos K) (hK : SameK K K') (hS : InfBase T) (hx : Has x a b) (hx' : Has x' a b) :
    ∃ z z', tanI K V.pp x = .ok z ∧ tanI K' W.pp x' = .ok z' ∧ Same z z' := by
  have hA := hV.tight.dir du_tight
  have hA' := hW.tight.dir du_tight
  obtain ⟨c, d, hy, hc, -, -, hmem⟩ := period_has hB.ok.piLower hB.ok.piUpper hP.piLower
  obtain ⟨c₁, d₁, hy₁, hy'⟩ := hK.pi
  obtain ⟨rfl, rfl⟩ := hy.unique hy₁
  obtain ⟨h, hh₁, ip, ip'⟩ := hK.half
  have whole : ∃ z z', wholeI V.C = .ok z ∧ wholeI W.C = .ok z' ∧ Same z z' := by
    obtain ⟨w, hw, h1, h2⟩ := whole_ok (V.infLaws hS)
    obtain ⟨w', hw', h1', h2'⟩ := whole_ok (W.infLaws hS)
    exact ⟨w, w', hw, hw', .of_gamma (by simp only [γ, h1, h2, h1', h2']) ⟨0, _, _, h1, h2, bot_le, le_top⟩⟩
  have e1 : val K.piHalfLower = some h := ip.lo
  have e1' : val K'.piHalfLower = some h := ip'.lo
  obtain ⟨nh, hnh, vnh⟩ := neg_ok hV.tight.neg e1
  obtain ⟨nh', hnh', vnh'⟩ := neg_ok hW.tight.neg e1'
  have form : ∀ {U : Env T} {k : PiConst T} {t : Itv T} {n : T}, Has t a b → Num.neg k.piHalfLower = some n → tanI k U.pp t =
      (fmodAux true U.pp t (piI k) >>= fun t0 => (if Num.le k.piHalfLower t0.lower then subII U.pp t0 (piI k) else pure t0) >>= fun tmp =>
        if Num.le tmp.lower n || Num.le k.piHalfLower tmp.upper then wholeI U.C
        else mk2 (U.B.fnDown .tan tmp.lower) (U.B.fnUp .tan tmp.upper)) := by
    intro U k t n ht hn
    unfold tanI
    rw [pure_chk, res_if_false (ht.test U.chk), pure_scope, pure_rnd, pure_unprot]
    have hneg : (negM k.piHalfLower : Res T) = .ok n := by unfold negM; change ofOpt (Num.neg k.piHalfLower) = _; rw [hn]; rfl
    rw [hneg]; rfl
  rw [form hx hnh, form hx' hnh']
  by_cases ha : a = ⊥
  · subst ha
    have bot : ∀ {U : Env T} {k : PiConst T} {t : Itv T} {n : T}, U.Tight → Has t ⊥ b → Has (piI k) c d → val k.piHalfLower = some h →
        (fmodAux true U.pp t (piI k) >>= fun t0 => (if Num.le k.piHalfLower t0.lower then subII U.pp t0 (piI k) else pure t0) >>= fun tmp =>
        if Num.le tmp.lower n || Num.le k.piHalfLower tmp.upper then wholeI U.C
        else mk2 (U.B.fnDown .tan tmp.lower) (U.B.fnUp .tan tmp.upper)) = wholeI U.C := by
      intro U k t n hU ht hy hh
      obtain ⟨tmp, h1, h2, h3⟩ := (fmod_bot hU hI ht hy (lt_of_lt_of_le zero_lt_one hc)).total
      rw [show fmodAux true U.pp t (piI k) = .ok tmp from h1]
      have g1 : Num.le k.piHalfLower tmp.lower = false := by
        rw [Bool.eq_false_iff]
        intro h
        obtain ⟨_, _, _, h, _⟩ := (NumLaws.le_iff _ _).1 h
        rw [h2] at h; cases h
      have g2 : Num.le k.piHalfLower tmp.upper = true := by
        rw [le_eq hh h3]; simp
      change ((if Num.le k.piHalfLower tmp.lower = true then _ else (pure tmp : Res (Itv T))) >>= _ : Res (Itv T)) = _
      rw [g1]
      change (if (Num.le tmp.lower n || Num.le k.piHalfLower tmp.upper) = true then _ else _ : Res (Itv T)) = _
      rw [g2, Bool.or_true]
      rfl
    rw [bot hV.tight hx hy ip.lo, bot hW.tight hx' hy' ip'.lo]
    exact whole
  · obtain ⟨p, rfl⟩ : ∃ p : ℝ, a = p := ⟨a.toReal, (EReal.coe_toReal hx.ne_top ha).symm⟩
    obtain ⟨t0, t0', h1, h1', l, u, it, it'⟩ := fmod_twin hV.tight hW.tight hV.int hW.int hx hx' hy hy' hc
    rw [show fmodAux true V.pp x (piI K) = .ok t0 from h1, show fmodAux true W.pp x' (piI K') = .ok t0' from h1']
    have step : ∃ tmp tmp', (if Num.le K.piHalfLower t0.lower then subII V.pp t0 (piI K) else pure t0) = .ok tmp ∧
        (if Num.le K'.piHalfLower t0'.lower then subII W.pp t0' (piI K') else pure t0') = .ok tmp' ∧ Same tmp tmp' := by
      rw [le_eq e1 it.lo, le_eq e1' it'.lo]
      by_cases g : h ≤ l
      · rw [decide_eq_true g]
        obtain ⟨t, ht, bt⟩ := (subII_post hA.op V.chk it hy).total
        obtain ⟨t', ht', bt'⟩ := (subII_post hA'.op W.chk it' hy').total
        rw [it'.gamma, hy'.gamma, ← it.gamma, ← hy.gamma] at bt'
        exact ⟨t, t', ht, ht', .of_bnd (it.nonempty.image2 hy.nonempty) bt bt'⟩
      · rw [decide_eq_false g]
        exact ⟨t0, t0', rfl, rfl, l, u, it, it'⟩
    obtain ⟨tmp, tmp', k1, k1', v, w, jt, jt'⟩ := step
    change ∃ z z', ((if Num.le K.piHalfLower t0.lower then subII V.pp t0 (piI K) else pure t0) >>= _) = _ ∧
      ((if Num.le K'.piHalfLower t0'.lower then subII W.pp t0' (piI K') else pure t0') >>= _) = _ ∧ _
    rw [k1, k1']
    change ∃ z z', (if Num.le tmp.lower nh || Num.le K.piHalfLower tmp.upper then _ else _) = _ ∧
      (if Num.le tmp'.lower nh' || Num.le K'.piHalfLower tmp'.upper then _ else _) = _ ∧ _
    rw [le_eq jt.lo vnh, le_eq e1 jt.up, le_eq jt'.lo vnh', le_eq e1' jt'.up]
    by_cases hw : v ≤ -h ∨ h ≤ w
    · rw [if_pos (by simpa using hw), if_pos (by simpa using hw)]; exact whole
    · rw [if_neg (by simpa using hw), if_neg (by simpa using hw)]
      push Not at hw
      obtain ⟨w1, w2⟩ := hw
      obtain ⟨h', hh, hh'⟩ := hB.ok.piHalfLower
      cases e1.symm.trans hh
      change h ≤ _ at hh'
      have hht := ip.ne_top
      have hhb : h ≠ ⊥ := fun e => by rw [e] at w2; exact absurd w2 (by simp)
      clear hh vnh vnh' ip ip' e1 e1' whole form
      lift h to ℝ using ⟨hht, hhb⟩
      have hut := jt.ne_top
      have hvb := jt.ne_bot
      have hub : v ≠ ⊥ := fun e => by rw [e] at w1; exact absurd w1 (by simp)
      have hvt : w ≠ ⊤ := fun e => by rw [e] at w2; exact absurd w2 (by simp)
      lift v to ℝ using ⟨hut, hub⟩
      lift w to ℝ using ⟨hvt, hvb⟩
      have w1' : -h < v := by exact_mod_cast w1
      have w2' : w < h := by exact_mod_cast w2
      have hh2 : h ≤ Real.pi / 2 := by exact_mod_cast hh'
      have huv : v ≤ w := by exact_mod_cast jt.le
      have hcos : ∀ s : ℝ, v ≤ s → s ≤ w → Real.cos s ≠ 0 := fun s h1 h2 =>
        (Real.cos_pos_of_mem_Ioo ⟨by linarith, by linarith⟩).ne'
      have key : ∀ {U : Env T} {t : Itv T}, Good U .tan → Has t v w → ∃ z : Itv T, (mk2 (U.B.fnDown .tan t.lower) (U.B.fnUp .tan t.upper) : Res (Itv T)) = .ok z ∧
          ∃ e e', val z.lower = some e ∧ val z.upper = some e' ∧ IsRoundDown T e (Real.tan v : ℝ) ∧ IsRoundUp T e' (Real.tan w : ℝ) := by
        intro U t hU ht
        obtain ⟨r, h1, e, h2, h3⟩ := (hU.fn.down du_tight ht.lo (.inl ⟨v, hcos v le_rfl huv, rfl, rfl⟩)).total
        obtain ⟨s, h4, e', h5, h6⟩ := (hU.fn.up du_tight ht.up (.inl ⟨w, hcos w huv le_rfl, rfl, rfl⟩)).total
        refine ⟨⟨r, s⟩, ?_, e, e', h2, h5, h3, h6⟩
        unfold mk2; rw [h1, h4]; rfl
      obtain ⟨z₁, k1, e, e', k2, k3, k4, k5⟩ := key hV jt
      obtain ⟨z₂, m1, f, f', m2, m3, m4, m5⟩ := key hW jt'
      cases down_unique k4 m4; cases up_unique k5 m5
      refine ⟨z₁, z₂, k1, m1, .of_gamma (by simp only [γ, k2, k3, m2, m3]) ⟨Real.tan v, _, _, k2, k3, k4.2.1, le_trans ?_ k5.2.1⟩⟩
      have := Real.strictMonoOn_tan.monotoneOn (a := v) (b := w) ⟨by linarith, by linarith⟩ ⟨by linarith, by linarith⟩ huv
      exact_mod_cast this

/-- Two computations, given the permitted depth of nesting, have results with the same bounds, which enclose `S`, once the
depth is `N`. -/
def Both (N : ℕ) (S : Set ℝ) (q q' : ℕ → Res (Itv T)) : Prop :=
  ∃ z z', (∀ fuel ≥ N, q fuel = .ok z) ∧ (∀ fuel ≥ N, q' fuel = .ok z') ∧ S ⊆ γ z ∧ Same z z'

theorem Both.of_nest {S : Set ℝ} (hS : S.Nonempty) {r r' : Res (Itv T)} (h : Refine.Nest S r r') (h' : Refine.Nest S r' r) :
    Both 0 S (fun _ => r) (fun _ => r') := by
  obtain ⟨z, z', rfl, rfl, h1, h2⟩ := h
  obtain ⟨_, _, h3, h4, -, h5⟩ := h'
  cases h3; cases h4
  exact ⟨z, z', fun _ _ => rfl, fun _ _ => rfl, h1, .of_gamma (subset_antisymm h2 h5) (hS.mono h1)⟩

theorem Fn.I_twin (f : Fn) (hv : ∃ s : V.State, V.Valid s) (hw : ∃ s : W.State, W.Valid s) (hV : V.Tight) (hW : W.Tight)
    (hf : Neighbours K ∧ V.FnOk (IsRoundDown T) (IsRoundUp T) f.uses ∧ (f.unbounded = true → InfBase T) ∧ (f.simple = false → V.IntOk ∧ IeeeBase T))
    (hf' : Neighbours K' ∧ W.FnOk (IsRoundDown T) (IsRoundUp T) f.uses ∧ (f.unbounded = true → InfBase T) ∧ (f.simple = false → W.IntOk ∧ IeeeBase T))
    (h : (γ x ∩ f.dom).Nonempty) (hx : Same x x') :
    ∃ N, ((f.uses == .cos) = false → N = 0) ∧ Both N (f.real '' (γ x ∩ f.dom)) (fun n => f.I K n V.pp x) (fun n => f.I K' n W.pp x') := by
  have hg := hx.gamma
  obtain ⟨hK, hc, hi, hs⟩ := hf
  obtain ⟨hK', hc', -, hs'⟩ := hf'
  have hφ : Lossless (id : T → T) := fun _ => rfl
  by_cases s : f.simple = true
  · have hu : f.uses = f := by cases f <;> first | rfl | cases s
    rw [hu] at hc hc'
    have ok : V.ElemOk K (InfBase T) f := ⟨hK.brackets, by rw [hu]; exact hc.directed, hi, fun h => by rw [s] at h; cases h⟩
    have ok' : W.ElemOk K' (InfBase T) f := ⟨hK'.brackets, by rw [hu]; exact hc'.directed, hi, fun h => by rw [s] at h; cases h⟩
    have fuels : ∀ {U : Env T} {k : PiConst T} {t : Itv T} (n : ℕ), f.I k n U.pp t = f.I k 0 U.pp t := by
      intro U k t n; cases f <;> first | rfl | cases s
    refine ⟨0, fun _ => rfl, ?_⟩
    obtain ⟨z, z', h1, h2, h3, h4⟩ := Both.of_nest (h.image _)
      (Refine.Fn.I_nest (fuel := 0) (fuel' := 0) hφ hv hW.directed hV f s ok' hc hK hi h hg.subset)
      (hg ▸ Refine.Fn.I_nest (fuel := 0) (fuel' := 0) hφ hw hV.directed hW f s ok hc' hK' hi (hg ▸ h) hg.symm.subset)
    exact ⟨z, z', fun n _ => (fuels n).trans (h1 0 le_rfl), fun n _ => (fuels n).trans (h2 0 le_rfl), h3, h4⟩
  · have s' : f.simple = false := by simpa using s
    obtain ⟨hi₁, hI⟩ := hs s'
    obtain ⟨hi₂, -⟩ := hs' s'
    obtain ⟨a, b, ix, ix'⟩ := hx
    cases f with
    | sin =>
      obtain ⟨N, z, z', h1, h2, h3, h4⟩ := sinI_twin ⟨hV, hi₁, hc⟩ ⟨hW, hi₂, hc'⟩ hI hK.brackets hK'.brackets hK.pos hK'.pos (.of hK hK') ix ix'
      exact ⟨N, fun h => (by cases h), z, z', h1, h2, by rintro _ ⟨r, hr, rfl⟩; exact h4 r hr.1, h3⟩
    | cos =>
      obtain ⟨N, z, z', h1, h2, h3, h4⟩ := cosI_twin ⟨hV, hi₁, hc⟩ ⟨hW, hi₂, hc'⟩ hI hK.brackets hK'.brackets hK.pos hK'.pos (.of hK hK')
        false false ix ix'
      exact ⟨N, fun h => (by cases h), z, z', h1, h2, by rintro _ ⟨r, hr, rfl⟩; exact h4 r hr.1, h3⟩
    | tan =>
      obtain ⟨z, z', h1, h2, h3⟩ := tanI_twin ⟨hV, hi₁, hc⟩ ⟨hW, hi₂, hc'⟩ hI hK.brackets hK.pos (.of hK hK') (hi rfl) ix ix'
      have := tan_post hV hi₁ hI du_tight hc hK.brackets.ok hK.pos (V.infLaws (hi rfl)) ix
      rw [h1] at this
      exact ⟨0, fun _ => rfl, z, z', fun _ _ => h1, fun _ _ => h2, by rintro _ ⟨r, hr, rfl⟩; exact this.1 r hr.1 hr.2, h3⟩
    | _ => exact absurd rfl s

theorem Expr.eval_twin (hv : ∃ s : V.State, V.Valid s) (hw : ∃ s : W.State, W.Valid s) (hV : V.Tight) (hW : W.Tight)
    {ρ ρ' : ℕ → Itv T} (hρ : ∀ i, γ (ρ i) = γ (ρ' i)) (e : Expr T) (hs : e.Exacting V K (InfBase T)) (hs' : e.Exacting W K' (InfBase T))
    (hd : ∃ r, e.ValueIn ρ r) :
    ∃ N, (e.nests = false → N = 0) ∧ Both N {r | e.ValueIn ρ r} (fun n => e.eval K n V.pp ρ) (fun n => e.eval K' n W.pp ρ') := by
  have hφ : Lossless (id : T → T) := fun _ => rfl
  have step : ∀ {N M : ℕ} {S S' : Set ℝ} {q q' : ℕ → Res (Itv T)} {g g' : ℕ → Itv T → Res (Itv T)} {b c : Bool}, (b = false → N = 0) →
      Both N S q q' → (∀ x x', S ⊆ γ x → Same x x' → ∃ M, (c = false → M = 0) ∧ Both M S' (fun n => g n x) (fun n => g' n x')) →
      ∃ N, ((c || b) = false → N = 0) ∧ Both N S' (fun n => q n >>= g n) (fun n => q' n >>= g' n) := by
    intro N M S S' q q' g g' b c hb ⟨z, z', h1, h2, h3, h4⟩ h
    obtain ⟨M, hc, w, w', k1, k2, k3, k4⟩ := h z z' h3 h4
    refine ⟨max N M, fun h => ?_, w, w', fun n hn => ?_, fun n hn => ?_, k3, k4⟩
    · rw [Bool.or_eq_false_iff] at h; rw [hb h.2, hc h.1]; rfl
    · change (q n >>= g n) = _
      rw [h1 n ((le_max_left _ _).trans hn)]; exact k1 n ((le_max_right _ _).trans hn)
    · change (q' n >>= g' n) = _
      rw [h2 n ((le_max_left _ _).trans hn)]; exact k2 n ((le_max_right _ _).trans hn)
  have step₂ : ∀ {N M : ℕ} {S₁ S₂ S' : Set ℝ} {q q' s s' : ℕ → Res (Itv T)} {g g' : Itv T → Itv T → Res (Itv T)} {b c : Bool},
      (b = false → N = 0) → (c = false → M = 0) → Both N S₁ q q' → Both M S₂ s s' →
      (∀ x x' y y', S₁ ⊆ γ x → Same x x' → S₂ ⊆ γ y → Same y y' → Both 0 S' (fun _ => g x y) (fun _ => g' x' y')) →
      ∃ N, ((b || c) = false → N = 0) ∧ Both N S' (fun n => pair (q n) (s n) >>= fun p => g p.1 p.2)
        (fun n => pair (q' n) (s' n) >>= fun p => g' p.1 p.2) := by
    intro N M S₁ S₂ S' q q' s s' g g' b c hb hc ⟨z, z', h1, h2, h3, h4⟩ ⟨y, y', m1, m2, m3, m4⟩ h
    obtain ⟨w, w', k1, k2, k3, k4⟩ := h z z' y y' h3 h4 m3 m4
    refine ⟨max N M, fun h => ?_, w, w', fun n hn => ?_, fun n hn => ?_, k3, k4⟩
    · rw [Bool.or_eq_false_iff] at h; rw [hb h.1, hc h.2]; rfl
    · change (pair (q n) (s n) >>= _) = _
      rw [h1 n ((le_max_left _ _).trans hn), m1 n ((le_max_right _ _).trans hn)]; exact k1 n (Nat.zero_le _)
    · change (pair (q' n) (s' n) >>= _) = _
      rw [h2 n ((le_max_left _ _).trans hn), m2 n ((le_max_right _ _).trans hn)]; exact k2 n (Nat.zero_le _)
  have weak : ∀ {N : ℕ} {S S' : Set ℝ} {q q' : ℕ → Res (Itv T)}, Both N S' q q' → S ⊆ S' → Both N S q q' := by
    rintro N S S' q q' ⟨z, z', h1, h2, h3, h4⟩ h
    exact ⟨z, z', h1, h2, h.trans h3, h4⟩
  have zero : ∀ {S S' : Set ℝ} {q q' : Res (Itv T)}, Both 0 S' (fun _ => q) (fun _ => q') → S ⊆ S' →
      ∃ M, (false = false → M = 0) ∧ Both M S (fun _ => q) (fun _ => q') := fun h h' => ⟨0, fun _ => rfl, weak h h'⟩
  induction e with
  | var i =>
    obtain ⟨r, v, hv, hr⟩ := hd
    exact ⟨0, fun _ => rfl, ρ i, ρ' i, fun _ _ => rfl, fun _ _ => rfl, fun r ⟨v, hv, hr⟩ => hr ▸ hv i, .of_gamma (hρ i) ⟨_, hv i⟩⟩
  | num t =>
    obtain ⟨r₀, v, -, hr⟩ := hd
    obtain ⟨z, hz, -, -, e⟩ := C36_num V hr
    obtain ⟨z', hz', -, -, e'⟩ := C36_num W hr
    refine ⟨0, fun _ => rfl, z, z', fun _ _ => hz, fun _ _ => hz', fun r ⟨v, hv, hr'⟩ => ?_, .of_gamma (e.trans e'.symm) (by rw [e]; exact ⟨_, rfl⟩)⟩
    rw [e]; exact EReal.coe_eq_coe_iff.1 (Option.some.inj (hr'.symm.trans hr))
  | un o e ih =>
    obtain ⟨ho, hS, hs⟩ := hs
    obtain ⟨-, hS', hs'⟩ := hs'
    obtain ⟨r₀, v, hv', a₀, hr, hr₀⟩ := hd
    obtain ⟨N, hN, hb⟩ := ih hs hs' ⟨a₀, v, hv', hr⟩
    refine step (M := 0) (c := false) hN hb fun x x' hx hxx => zero (Both.of_nest (S := {r | ∃ a ∈ γ x, o.Rel a r}) ⟨r₀, a₀, hx ⟨v, hv', hr⟩, hr₀⟩ ?_ ?_)
      fun r ⟨v, hv, a, ha, h⟩ => ⟨a, hx ⟨v, hv, ha⟩, h⟩
    · exact Refine.UnOp.I_nest hφ hv hW.directed hV o ho ho (fun h => (hS' h).mono (fun h => h.2.1) fun h => h.2.1) hS
        ⟨a₀, hx ⟨v, hv', hr⟩, r₀, hr₀⟩ hxx.gamma.subset
    · have := Refine.UnOp.I_nest hφ hw hV.directed hW o ho ho (fun h => (hS h).mono (fun h => h.2.1) fun h => h.2.1) hS'
        ⟨a₀, hxx.gamma ▸ hx ⟨v, hv', hr⟩, r₀, hr₀⟩ hxx.gamma.symm.subset
      rwa [← hxx.gamma] at this
  | pow e k ih =>
    obtain ⟨hk, ho, hs⟩ := hs
    obtain ⟨-, -, hs'⟩ := hs'
    obtain ⟨r₀, v, hv', a₀, hr, hr₀, hr₁⟩ := hd
    obtain ⟨N, hN, hb⟩ := ih hs hs' ⟨a₀, v, hv', hr⟩
    refine step (M := 0) (c := false) (g := fun _ x => powI V.pp x k) (g' := fun _ x => powI W.pp x k) hN hb
      fun x x' hx hxx => zero (Both.of_nest (S := {r | ∃ a ∈ γ x, (a ≠ 0 ∨ 0 < k) ∧ r = a ^ k}) ⟨r₀, a₀, hx ⟨v, hv', hr⟩, hr₀, hr₁⟩ ?_ ?_) fun r ⟨v, hv, a, ha, h⟩ => ⟨a, hx ⟨v, hv, ha⟩, h⟩
    · exact Refine.powI_nest hφ hV hW.signed hk ho ho ⟨a₀, hx ⟨v, hv', hr⟩, hr₀⟩ hxx.gamma.subset
    · have := Refine.powI_nest hφ hW hV.signed hk ho ho ⟨a₀, hxx.gamma ▸ hx ⟨v, hv', hr⟩, hr₀⟩ hxx.gamma.symm.subset
      rwa [← hxx.gamma] at this
  | bin o e₁ e₂ ih₁ ih₂ =>
    obtain ⟨ho, hs₁, hs₂⟩ := hs
    obtain ⟨-, hs₁', hs₂'⟩ := hs'
    obtain ⟨r₀, v, hv', a₀, b₀, hr₁, hr₂, hr₀⟩ := hd
    obtain ⟨N, hN, hb⟩ := ih₁ hs₁ hs₁' ⟨a₀, v, hv', hr₁⟩
    obtain ⟨M, hM, hb'⟩ := ih₂ hs₂ hs₂' ⟨b₀, v, hv', hr₂⟩
    refine step₂ (g := fun x y => o.II V.pp x y) (g' := fun x y => o.II W.pp x y) hN hM hb hb'
      fun x x' y y' hx hxx hy hyy => weak (Both.of_nest (S := {r | ∃ a ∈ γ x, ∃ b ∈ γ y, o.Rel a b r}) ⟨r₀, a₀, hx ⟨v, hv', hr₁⟩, b₀, hy ⟨v, hv', hr₂⟩, hr₀⟩ ?_ ?_)
        fun r ⟨v, hv, a, b, ha, hb, h⟩ => ⟨a, hx ⟨v, hv, ha⟩, b, hy ⟨v, hv, hb⟩, h⟩
    · exact Refine.BinOp.II_nest hφ hv hW.directed hV o ho ho ⟨a₀, hx ⟨v, hv', hr₁⟩, b₀, hy ⟨v, hv', hr₂⟩, r₀, hr₀⟩ hxx.gamma.subset hyy.gamma.subset
    · have := Refine.BinOp.II_nest hφ hw hV.directed hW o ho ho ⟨a₀, hxx.gamma ▸ hx ⟨v, hv', hr₁⟩, b₀, hyy.gamma ▸ hy ⟨v, hv', hr₂⟩, r₀, hr₀⟩
        hxx.gamma.symm.subset hyy.gamma.symm.subset
      rwa [← hxx.gamma, ← hyy.gamma] at this
  | binL o t e ih =>
    obtain ⟨ho, hs⟩ := hs
    obtain ⟨-, hs'⟩ := hs'
    obtain ⟨r₀, v, hv', a₀, b₀, ht, hr, hr₀⟩ := hd
    obtain ⟨N, hN, hb⟩ := ih hs hs' ⟨b₀, v, hv', hr⟩
    refine step (M := 0) (c := false) (g := fun _ x => o.TI V.pp t x) (g' := fun _ x => o.TI W.pp t x) hN hb
      fun x x' hx hxx => zero (Both.of_nest (S := {r | ∃ b ∈ γ x, o.Rel a₀ b r}) ⟨r₀, b₀, hx ⟨v, hv', hr⟩, hr₀⟩ ?_ ?_)
        fun r ⟨v, hv, a, b, ht', hb, h⟩ => ⟨b, hx ⟨v, hv, hb⟩, by rwa [EReal.coe_eq_coe_iff.1 (Option.some.inj (ht.symm.trans ht'))]⟩
    · exact Refine.BinOp.TI_nest hφ hv hW.directed hV o ho ho ht ⟨b₀, hx ⟨v, hv', hr⟩, r₀, hr₀⟩ hxx.gamma.subset
    · have := Refine.BinOp.TI_nest hφ hw hV.directed hW o ho ho ht ⟨b₀, hxx.gamma ▸ hx ⟨v, hv', hr⟩, r₀, hr₀⟩ hxx.gamma.symm.subset
      rwa [← hxx.gamma] at this
  | binR o e t ih =>
    obtain ⟨r₀, v, hv', a₀, b₀, hr, ht, hr₀⟩ := hd
    obtain ⟨N, hN, hb⟩ := ih hs hs' ⟨a₀, v, hv', hr⟩
    refine step (M := 0) (c := false) (g := fun _ x => o.IT V.pp x t) (g' := fun _ x => o.IT W.pp x t) hN hb
      fun x x' hx hxx => zero (Both.of_nest (S := {r | ∃ a ∈ γ x, o.Rel a b₀ r}) ⟨r₀, a₀, hx ⟨v, hv', hr⟩, hr₀⟩ ?_ ?_)
        fun r ⟨v, hv, a, b, ha, ht', h⟩ => ⟨a, hx ⟨v, hv, ha⟩, by rwa [EReal.coe_eq_coe_iff.1 (Option.some.inj (ht.symm.trans ht'))]⟩
    · exact Refine.BinOp.IT_nest hφ hv hW.directed hV o ht ⟨a₀, hx ⟨v, hv', hr⟩, r₀, hr₀⟩ hxx.gamma.subset
    · have := Refine.BinOp.IT_nest hφ hw hV.directed hW o ht ⟨a₀, hxx.gamma ▸ hx ⟨v, hv', hr⟩, r₀, hr₀⟩ hxx.gamma.symm.subset
      rwa [← hxx.gamma] at this
  | inter e₁ e₂ ih₁ ih₂ =>
    obtain ⟨hs₁, hs₂⟩ := hs
    obtain ⟨hs₁', hs₂'⟩ := hs'
    obtain ⟨r₀, v, hv', hr₁, hr₂⟩ := hd
    obtain ⟨N, hN, hb⟩ := ih₁ hs₁ hs₁' ⟨r₀, v, hv', hr₁⟩
    obtain ⟨M, hM, hb'⟩ := ih₂ hs₂ hs₂' ⟨r₀, v, hv', hr₂⟩
    refine step₂ (g := fun x y => lift (intersect V.pp.chk x y)) (g' := fun x y => lift (intersect W.pp.chk x y)) hN hM hb hb'
      fun x x' y y' hx hxx hy hyy => ?_
    have h₀ : r₀ ∈ γ x ∩ γ y := ⟨hx ⟨v, hv', hr₁⟩, hy ⟨v, hv', hr₂⟩⟩
    obtain ⟨z, h1, h2⟩ := C23_intersect V ⟨r₀, h₀⟩
    obtain ⟨z', h1', h2'⟩ := C23_intersect W ⟨r₀, hxx.gamma ▸ h₀.1, hyy.gamma ▸ h₀.2⟩
    refine ⟨z, z', fun _ _ => h1, fun _ _ => h1', ?_, .of_gamma (by rw [h2, h2', hxx.gamma, hyy.gamma]) ⟨r₀, by rw [h2]; exact h₀⟩⟩
    rw [h2]; exact fun r ⟨v, hv, ha, hb⟩ => ⟨hx ⟨v, hv, ha⟩, hy ⟨v, hv, hb⟩⟩
  | fn f e ih =>
    obtain ⟨hf, hs⟩ := hs
    obtain ⟨hf', hs'⟩ := hs'
    obtain ⟨r₀, v, hv', a₀, hr, hr₀, -⟩ := hd
    obtain ⟨N, hN, hb⟩ := ih hs hs' ⟨a₀, v, hv', hr⟩
    refine step (M := 0) (g := fun n x => f.I K n V.pp x) (g' := fun n x => f.I K' n W.pp x) hN hb fun x x' hx hxx => ?_
    obtain ⟨M, h1, h2⟩ := Fn.I_twin f hv hw hV hW hf hf' ⟨a₀, hx ⟨v, hv', hr⟩, hr₀⟩ hxx
    exact ⟨M, h1, weak h2 fun r ⟨v, hv, a, ha, hd, h⟩ => ⟨a, ⟨hx ⟨v, hv, ha⟩, hd⟩, h.symm⟩⟩
end
end BI.Twin
