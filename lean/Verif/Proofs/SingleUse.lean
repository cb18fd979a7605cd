import Verif.Props.Sharp
import Verif.Props.Utility
import Verif.Proofs.Isotone
import Verif.Proofs.PowMono
import Verif.Spec.SingleUse
/-! # Exact ranges -/

namespace BI
open Set

section
variable {T : Type} [Num T] [Val T] [NumLaws T] {x y z : Itv T} {t : T}

/-- `z` is `S`, a closed bounded interval. -/
def Rng (S : Set ℝ) (z : Itv T) : Prop := γ z = S ∧ IsCompact S ∧ IsConnected S

theorem Bnd.rng {S : Set ℝ} (h : Bnd Eq Eq S z) (hc : IsCompact S) (hn : IsConnected S) : Rng S z := by
  refine ⟨?_, hc, hn⟩
  have hI := eq_Icc_of_connected_compact hn hc
  have hle : sInf S ≤ sSup S := by
    have := hn.nonempty; rw [hI] at this; exact nonempty_Icc.1 this
  set l := sInf S
  set u := sSup S
  rw [hI] at h ⊢
  obtain ⟨_, _, e₁, e₂, h1, h2, h3, h4, rfl, rfl⟩ := h
  have k1 : IsGLB (E (Icc l u)) (l : EReal) :=
    ⟨by rintro _ ⟨r, hr, rfl⟩; exact_mod_cast hr.1, fun e he => he ⟨l, left_mem_Icc.2 hle, rfl⟩⟩
  have k2 : IsLUB (E (Icc l u)) (u : EReal) :=
    ⟨by rintro _ ⟨r, hr, rfl⟩; exact_mod_cast hr.2, fun e he => he ⟨u, right_mem_Icc.2 hle, rfl⟩⟩
  rw [h3.unique k1] at h1
  rw [h4.unique k2] at h2
  ext r
  constructor
  · rintro ⟨p, q, k3, k4, k5, k6⟩
    cases h1.symm.trans k3; cases h2.symm.trans k4
    exact ⟨EReal.coe_le_coe_iff.1 k5, EReal.coe_le_coe_iff.1 k6⟩
  · rintro ⟨k5, k6⟩; exact ⟨_, _, h1, h2, EReal.coe_le_coe_iff.2 k5, EReal.coe_le_coe_iff.2 k6⟩

/-- `z` is a closed bounded interval. -/
def Cpt (S : Set ℝ) : Prop := IsCompact S ∧ IsConnected S

theorem Cpt.single (r : ℝ) : Cpt {r} := ⟨isCompact_singleton, isConnected_singleton⟩

theorem Cpt.image {S : Set ℝ} (h : Cpt S) {g : ℝ → ℝ} (hg : ContinuousOn g S) : Cpt (g '' S) :=
  ⟨h.1.image_of_continuousOn hg, h.2.image g hg⟩

theorem Cpt.image2 {X Y : Set ℝ} (hx : Cpt X) (hy : Cpt Y) {g : ℝ → ℝ → ℝ} (f : ℝ × ℝ → ℝ) (hf : ContinuousOn f (X ×ˢ Y))
    (hg : ∀ a b, f (a, b) = g a b := by intros; rfl) : Cpt (Set.image2 g X Y) := by
  have him : Set.image2 g X Y = f '' (X ×ˢ Y) := by
    rw [← image_prod]; exact image_congr fun r _ => (hg r.1 r.2).symm
  rw [him]
  exact ⟨(hx.1.prod hy.1).image_of_continuousOn hf, (hx.2.prod hy.2).image f hf⟩

theorem Cpt.icc {S : Set ℝ} (h : Cpt S) : ∃ p q, p ≤ q ∧ S = Icc p q := by
  have hI := eq_Icc_of_connected_compact h.2 h.1
  refine ⟨_, _, ?_, hI⟩
  have := h.2.nonempty; rw [hI] at this; exact nonempty_Icc.1 this

theorem Cpt.of_icc {p q : ℝ} (h : p ≤ q) : Cpt (Icc p q) := ⟨isCompact_Icc, isConnected_Icc h⟩

theorem has_of_icc {p q : ℝ} (h : p ≤ q) (e : γ x = Icc p q) : Has x p q := by
  have hn : (γ x).Nonempty := by rw [e]; exact nonempty_Icc.2 h
  obtain ⟨a, b, ix⟩ := has_of_nonempty hn
  obtain ⟨p', q', rfl, rfl, h'⟩ := ix.of_bounded (by rw [e]; exact Metric.isBounded_Icc p q)
  have := ix.gamma_Icc
  rw [e] at this
  have h1 := (Icc_subset_Icc_iff h).1 this.subset
  have h2 := (Icc_subset_Icc_iff h').1 this.superset
  rw [show p = p' from le_antisymm h2.1 h1.1, show q = q' from le_antisymm h1.2 h2.2]
  exact ix

theorem hull_rng {X Y : Set ℝ} (hx : γ x = X) (hy : γ y = Y) (cx : Cpt X) (cy : Cpt Y) (h : LeastEnclosing z (X ∪ Y)) :
    γ z = {r | ∃ a ∈ X, ∃ b ∈ Y, BinOp.hull.Rel a b r} ∧ Cpt (γ z) := by
  obtain ⟨p, q, hp, rfl⟩ := cx.icc
  obtain ⟨p', q', hp', rfl⟩ := cy.icc
  have ix := has_of_icc hp hx
  have iy := has_of_icc hp' hy
  have hw : Has (⟨stdMin x.lower y.lower, stdMax x.upper y.upper⟩ : Itv T) ((min p p' : ℝ) : EReal) ((max q q' : ℝ) : EReal) := by
    rw [EReal.coe_strictMono.monotone.map_min, EReal.coe_strictMono.monotone.map_max]
    exact hull_has ix iy
  have k1 := h.2 _ (by rw [hw.gamma_Icc]; exact union_subset (Icc_subset_Icc (min_le_left _ _) (le_max_left _ _)) (Icc_subset_Icc (min_le_right _ _) (le_max_right _ _)))
  rw [hw.gamma_Icc] at k1
  have k2 : {r | ∃ a ∈ Icc p q, ∃ b ∈ Icc p' q', BinOp.hull.Rel a b r} ⊆ γ z := by
    rintro r ⟨a, ha, b, hb, hr⟩
    exact gamma_between (h.1 (.inl ha)) (h.1 (.inr hb)) hr.1 hr.2
  have k3 : Icc (min p p') (max q q') ⊆ {r | ∃ a ∈ Icc p q, ∃ b ∈ Icc p' q', BinOp.hull.Rel a b r} := by
    rintro r ⟨h1, h2⟩
    by_cases h3 : r ≤ max p p'
    · exact ⟨p, left_mem_Icc.2 hp, p', left_mem_Icc.2 hp', h1, h3⟩
    · by_cases h4 : min q q' ≤ r
      · exact ⟨q, right_mem_Icc.2 hp, q', right_mem_Icc.2 hp', h4, h2⟩
      · push Not at h3 h4
        exact ⟨r, ⟨(le_max_left _ _).trans h3.le, h4.le.trans (min_le_left _ _)⟩, r,
          ⟨(le_max_right _ _).trans h3.le, h4.le.trans (min_le_right _ _)⟩, by simp [BinOp.Rel]⟩
  have e := subset_antisymm (k1.trans k3) k2
  refine ⟨e, ?_⟩
  rw [subset_antisymm k1 (k3.trans k2)]
  exact .of_icc ((min_le_left _ _).trans (hp.trans (le_max_left _ _)))

/-- `p` returns an interval that is `S`. -/
def Rets (p : Res (Itv T)) (S : Set ℝ) : Prop := ∃ z, p = .ok z ∧ γ z = S ∧ Cpt S

theorem Post.rets {p : Res (Itv T)} {S : Set ℝ} (h : Post True p (Bnd Eq Eq S)) (hc : Cpt S) : Rets p S := by
  obtain ⟨z, hz, hb⟩ := h.ok_of
  exact ⟨z, hz, (hb.rng hc.1 hc.2).1, hc⟩

theorem quot_eq {X Y : Set ℝ} (h0 : (0 : ℝ) ∉ Y) : quot X Y = Set.image2 (· / ·) X Y := by
  ext q; constructor
  · rintro ⟨a, ha, b, hb, _, rfl⟩; exact ⟨a, ha, b, hb, rfl⟩
  · rintro ⟨a, ha, b, hb, rfl⟩; exact ⟨a, ha, b, hb, fun h => h0 (h ▸ hb), rfl⟩

theorem quot_cpt {X Y : Set ℝ} (hx : Cpt X) (hy : Cpt Y) (h0 : (0 : ℝ) ∉ Y) : Cpt (quot X Y) := by
  rw [quot_eq h0]
  exact hx.image2 hy (fun p => p.1 / p.2) (continuousOn_fst.div continuousOn_snd fun p hp h => h0 (h ▸ hp.2))

theorem rel_image2 {g : ℝ → ℝ → ℝ} {X Y : Set ℝ} : Set.image2 g X Y = {r | ∃ a ∈ X, ∃ b ∈ Y, r = g a b} := by
  ext r; simp only [mem_image2, mem_ofPred_eq, eq_comm]

theorem rel_quot {X Y : Set ℝ} : quot X Y = {r | ∃ a ∈ X, ∃ b ∈ Y, b ≠ 0 ∧ r = a / b} := rfl

theorem Rets.rel {p : Res (Itv T)} {S S' : Set ℝ} (h : Rets p S) (e : S = S') : Rets p S' := e ▸ h

variable (V : Env T) (hV : V.Ok Eq Eq)
include hV

theorem BinOp.II_rets (o : BinOp) (cx : Cpt (γ x)) (cy : Cpt (γ y)) (h : ∀ a ∈ γ x, ∀ b ∈ γ y, ∃ r, o.Rel a b r) :
    Rets (o.II V.pp x y) {r | ∃ a ∈ γ x, ∃ b ∈ γ y, o.Rel a b r} := by
  have hx := cx.2.nonempty
  have hy := cy.2.nonempty
  obtain ⟨_, _, ix⟩ := has_of_nonempty hx
  obtain ⟨_, _, iy⟩ := has_of_nonempty hy
  have hO := (hV.dir du_eq).op
  cases o with
  | add => exact ((addII_post hO V.chk ix iy).rets (cx.image2 cy (fun p => p.1 + p.2) (by fun_prop))).rel rel_image2
  | sub => exact ((subII_post hO V.chk ix iy).rets (cx.image2 cy (fun p => p.1 - p.2) (by fun_prop))).rel rel_image2
  | mul => exact ((mulII_post hO V.chk ix iy).rets (cx.image2 cy (fun p => p.1 * p.2) (by fun_prop))).rel rel_image2
  | div =>
    have h0 : (0 : ℝ) ∉ γ y := fun h0 => by
      obtain ⟨a, ha⟩ := hx
      obtain ⟨r, hr⟩ := h a ha 0 h0
      exact hr.1 rfl
    exact (divII_nz_post (hV.div du_eq) V.chk ix iy h0).rets (quot_cpt cx cy h0)
  | min =>
    obtain ⟨z, h, e⟩ := C29_min V hx hy
    exact Rets.rel ⟨z, h, e, cx.image2 cy (fun p => Min.min p.1 p.2) (by fun_prop)⟩ rel_image2
  | max =>
    obtain ⟨z, h, e⟩ := C29_max V hx hy
    exact Rets.rel ⟨z, h, e, cx.image2 cy (fun p => Max.max p.1 p.2) (by fun_prop)⟩ rel_image2
  | hull =>
    obtain ⟨z, h, e⟩ := C24_hull V (.inl hx) (.inl hy) hx.inl
    obtain ⟨k1, k2⟩ := hull_rng rfl rfl cx cy e
    exact ⟨z, h, k1, k1 ▸ k2⟩

theorem BinOp.TI_rets (o : BinOp) {a : ℝ} (ht : val t = some (a : EReal)) (cy : Cpt (γ y)) (h : ∀ b ∈ γ y, ∃ r, o.Rel a b r) :
    Rets (o.TI V.pp t y) {r | ∃ b ∈ γ y, o.Rel a b r} := by
  have hy := cy.2.nonempty
  obtain ⟨_, _, iy⟩ := has_of_nonempty hy
  have hO := (hV.dir du_eq).op
  have ca := Cpt.single a
  have E : {r | ∃ b ∈ γ y, o.Rel a b r} = {r | ∃ c ∈ ({a} : Set ℝ), ∃ b ∈ γ y, o.Rel c b r} := by ext r; simp
  rw [E]
  cases o with
  | add => exact ((addTI_post hO V.chk ht iy).rets (ca.image2 cy (fun p => p.1 + p.2) (by fun_prop))).rel rel_image2
  | sub => exact ((subTI_post hO V.chk ht iy).rets (ca.image2 cy (fun p => p.1 - p.2) (by fun_prop))).rel rel_image2
  | mul => exact ((mulTI_post hO V.chk ht iy).rets (ca.image2 cy (fun p => p.1 * p.2) (by fun_prop))).rel rel_image2
  | div =>
    have h0 : (0 : ℝ) ∉ γ y := fun h0 => by
      obtain ⟨r, hr⟩ := h 0 h0
      exact hr.1 rfl
    exact (divTI_nz_post (hV.div du_eq) V.chk ht iy h0).rets (quot_cpt ca cy h0)
  | min =>
    obtain ⟨z, h, e⟩ := (C29_min_num V hy ht).2
    refine Rets.rel ⟨z, h, ?_, ca.image2 cy (g := Min.min) (fun p => Min.min p.1 p.2) (by fun_prop)⟩ rel_image2
    rw [e, image2_singleton_left]; rfl
  | max =>
    obtain ⟨z, h, e⟩ := (C29_max_num V hy ht).2
    refine Rets.rel ⟨z, h, ?_, ca.image2 cy (g := Max.max) (fun p => Max.max p.1 p.2) (by fun_prop)⟩ rel_image2
    rw [e, image2_singleton_left]; rfl
  | hull =>
    obtain ⟨z, h, e⟩ := (C24_hull_num V (.inl hy) ht).2
    obtain ⟨k1, k2⟩ := hull_rng (gamma_single ht) rfl ca cy e
    exact ⟨z, h, k1, k1 ▸ k2⟩

theorem BinOp.IT_rets (o : BinOp) {b : ℝ} (ht : val t = some (b : EReal)) (cx : Cpt (γ x)) (h : ∀ a ∈ γ x, ∃ r, o.Rel a b r) :
    Rets (o.IT V.pp x t) {r | ∃ a ∈ γ x, o.Rel a b r} := by
  have hx := cx.2.nonempty
  obtain ⟨_, _, ix⟩ := has_of_nonempty hx
  have hO := (hV.dir du_eq).op
  have cb := Cpt.single b
  have E : {r | ∃ a ∈ γ x, o.Rel a b r} = {r | ∃ a ∈ γ x, ∃ c ∈ ({b} : Set ℝ), o.Rel a c r} := by ext r; simp
  rw [E]
  cases o with
  | add => exact ((addIT_post hO V.chk ht ix).rets (cx.image2 cb (fun p => p.1 + p.2) (by fun_prop))).rel rel_image2
  | sub => exact ((subIT_post hO V.chk ht ix).rets (cx.image2 cb (fun p => p.1 - p.2) (by fun_prop))).rel rel_image2
  | mul => exact ((mulIT_post hO V.chk ht ix).rets (cx.image2 cb (fun p => p.1 * p.2) (by fun_prop))).rel rel_image2
  | div =>
    have h0 : b ≠ 0 := by
      obtain ⟨a, ha⟩ := hx
      obtain ⟨r, hr⟩ := h a ha
      exact hr.1
    exact (divIT_post (hV.div du_eq) V.chk ix ht h0).rets (quot_cpt cx cb fun h => h0 h.symm)
  | min =>
    obtain ⟨z, h, e⟩ := (C29_min_num V hx ht).1
    refine Rets.rel ⟨z, h, ?_, cx.image2 cb (g := Min.min) (fun p => Min.min p.1 p.2) (by fun_prop)⟩ rel_image2
    rw [e, image2_singleton_right]; rfl
  | max =>
    obtain ⟨z, h, e⟩ := (C29_max_num V hx ht).1
    refine Rets.rel ⟨z, h, ?_, cx.image2 cb (g := Max.max) (fun p => Max.max p.1 p.2) (by fun_prop)⟩ rel_image2
    rw [e, image2_singleton_right]; rfl
  | hull =>
    obtain ⟨z, h, e⟩ := (C24_hull_num V (.inl hx) ht).1
    obtain ⟨k1, k2⟩ := hull_rng rfl (gamma_single ht) cx cb e
    exact ⟨z, h, k1, k1 ▸ k2⟩

theorem multInv_rets (cx : Cpt (γ x)) (h0 : (0 : ℝ) ∉ γ x) : Rets (multInv V.pp x) {r | ∃ a ∈ γ x, a ≠ 0 ∧ r = a⁻¹} := by
  obtain ⟨_, _, ix⟩ := has_of_nonempty cx.2.nonempty
  change Rets (multInv (purePolicies V.B V.C) x) _
  rw [multInv_eq V.chk ix]
  refine ((divTI_nz_post (hV.div du_eq) V.chk (r := 1) val_one ix h0).rets (quot_cpt (.single 1) cx h0)).rel ?_
  rw [rel_quot]; ext r; simp

theorem UnOp.I_rets (hn : ∀ a : T, Num.neg a ≠ none) (o : UnOp) (ho : o ≠ .sqrt) (cx : Cpt (γ x)) (h : ∀ a ∈ γ x, ∃ r, o.Rel a r) :
    Rets (o.I V.pp x) {r | ∃ a ∈ γ x, o.Rel a r} := by
  have hx := cx.2.nonempty
  obtain ⟨_, _, ix⟩ := has_of_nonempty hx
  have hO := (hV.dir du_eq).op
  cases o with
  | pos => exact Rets.rel ⟨x, rfl, rfl, cx⟩ (by ext r; simp [UnOp.Rel])
  | neg =>
    obtain ⟨z, h, e⟩ := C02_neg V hn hx
    refine Rets.rel ⟨z, h, ?_, cx.image (g := fun a => -a) (by fun_prop)⟩ (by ext r; simp only [UnOp.Rel, mem_image, mem_ofPred_eq, eq_comm])
    rw [e]; ext r; simp only [mem_image, mem_ofPred_eq, eq_comm]
  | abs =>
    obtain ⟨z, h, e⟩ := C28_abs V hn hx
    exact Rets.rel ⟨z, h, e, cx.image (g := fun a => |a|) (by fun_prop)⟩ (by ext r; simp only [UnOp.Rel, mem_image, mem_ofPred_eq, eq_comm])
  | square =>
    exact ((squareI_post hO V.chk ix).rets (cx.image (by fun_prop))).rel (by ext r; simp only [UnOp.Rel, mem_image, mem_ofPred_eq, eq_comm])
  | sqrt => exact absurd rfl ho
  | inv => exact multInv_rets V hV cx fun h0 => by obtain ⟨r, hr⟩ := h 0 h0; exact hr.1 rfl

end

/-! ## Powers -/

section
variable {T : Type} [Num T] [Val T] [NumLaws T] {x y z : Itv T} {t : T}

theorem Chain.exact {R : EReal → EReal → Prop} (hR : ∀ {z e : EReal}, Representable T e → R z e → z = e)
    (hm : ∀ {p q : ℝ}, Representable T (p : EReal) → Representable T (q : EReal) → Representable T ((p * q : ℝ) : EReal))
    {n : ℕ} {x y z : EReal} (h : Chain R n x y z) : ∀ p q : ℝ, x = p → y = q → Representable T (p : EReal) →
    Representable T (q : EReal) → z = ((q * p ^ (2 * n) : ℝ) : EReal) := by
  induction h with
  | zero => rintro p q - rfl - -; simp
  | even h0 he h _ ih =>
    rintro p q rfl rfl hp hq
    rw [← EReal.coe_mul] at h
    rw [ih (p * p) q (hR (hm hp hp) h) rfl (hm hp hp) hq]
    congr 2
    rw [← pow_two, ← pow_mul]; congr 1; omega
  | odd h0 ho h h1 _ ih =>
    rintro p q rfl rfl hp hq
    rw [← EReal.coe_mul] at h
    obtain rfl := hR (hm hp hp) h
    rw [← EReal.coe_mul] at h1
    rw [ih (p * p) (p * p * q) rfl (hR (hm (hm hp hp) hq) h1) (hm hp hp) (hm (hm hp hp) hq)]
    congr 1
    rw [mul_comm (p * p) q, mul_assoc]
    congr 1
    rw [← pow_two, ← pow_mul, ← pow_add]; congr 1; omega

theorem PowR.exact {R : EReal → EReal → Prop} (hR : ∀ {z e : EReal}, Representable T e → R z e → z = e)
    (hm : ∀ {p q : ℝ}, Representable T (p : EReal) → Representable T (q : EReal) → Representable T ((p * q : ℝ) : EReal))
    {n : ℕ} {p : ℝ} {z : EReal} (hp : Representable T (p : EReal)) (h : PowR R n (p : EReal) z) : z = ((p ^ n : ℝ) : EReal) := by
  unfold PowR at h
  split_ifs at h with ho
  · rw [Chain.exact hR hm h p p rfl rfl hp hp, ← pow_succ']; congr 2; omega
  · rw [Chain.exact hR hm h p 1 rfl rfl hp ⟨Num.lit 1, by rw [val_one]; rfl⟩, one_mul]; congr 2; omega

theorem down_exact {z e : EReal} (h : Representable T e) (hz : IsRoundDown T z e) : z = e :=
  le_antisymm hz.2.1 (hz.2.2 e h le_rfl)
theorem up_exact {z e : EReal} (h : Representable T e) (hz : IsRoundUp T z e) : z = e :=
  le_antisymm (hz.2.2 e h le_rfl) hz.2.1

variable (V : Env T)

theorem powNat_rets (hk : V.kind = .exact) (hE : ExactBase T) (hf : ModeFree T V.lib) (cx : Cpt (γ x)) {n : ℕ} (hn : 0 < n) :
    Rets (powNat V.pp x n) {r | ∃ a ∈ γ x, r = a ^ n} := by
  obtain ⟨p, q, hpq, hx⟩ := cx.icc
  have ix := has_of_icc hpq hx
  have hm : ∀ {p q : ℝ}, Representable T (p : EReal) → Representable T (q : EReal) → Representable T ((p * q : ℝ) : EReal) := by
    rintro p q ⟨a, ha⟩ ⟨b, hb⟩
    obtain ⟨c, -, h⟩ := hE.mul a b _ _ ha hb (mulOk_real (by simp) (by simp) (by simp) (by simp))
    exact ⟨c, by rw [h, EReal.coe_mul]⟩
  have hneg : ∀ {p : ℝ}, Representable T (p : EReal) → Representable T ((-p : ℝ) : EReal) := by
    rintro p ⟨a, ha⟩
    obtain ⟨c, hc⟩ := Option.ne_none_iff_exists'.1 (hE.neg a)
    exact ⟨c, by rw [NumLaws.neg a c hc, ha]; rfl⟩
  have rp : Representable T (p : EReal) := ⟨_, ix.lo⟩
  have rq : Representable T (q : EReal) := ⟨_, ix.up⟩
  have hD {p : ℝ} {z : EReal} (hp : Representable T (p : EReal)) (h : PowR (IsRoundDown T) n (p : EReal) z) :=
    PowR.exact (fun h h' => down_exact h h') hm hp h
  have hU {p : ℝ} {z : EReal} (hp : Representable T (p : EReal)) (h : PowR (IsRoundUp T) n (p : EReal) z) :=
    PowR.exact (fun h h' => up_exact h h') hm hp h
  have hT : ∀ D U, V.Ok D U := fun _ _ => .inr ⟨hk, hE, hf⟩
  obtain ⟨z, hz, ⟨l, u, hl, hu, hlo, hhi⟩, hin, -⟩ := ((powNat_chain ((hT _ _).dir du_tight) IsRoundDown.leS IsRoundUp.geS V.chk ix hn).and
    (powNat_post ((hT _ _).dir du_signed) V.chk ix hn)).ok_of
  have cS : Cpt ((fun a => a ^ n) '' γ x) := cx.image (by fun_prop)
  have e : (fun a => a ^ n) '' γ x = {r | ∃ a ∈ γ x, r = a ^ n} := by
    ext r; simp only [mem_image, mem_ofPred_eq, eq_comm]
  refine Rets.rel ⟨z, hz, subset_antisymm ?_ ?_, cS⟩ e
  · have kl : ∃ r ∈ (fun a => a ^ n) '' γ x, l = ((r : ℝ) : EReal) := by
      unfold PowLo at hlo
      rw [hx]
      split_ifs at hlo with ho
      · rcases lt_or_ge p 0 with h | h
        · obtain ⟨w, rfl, hw⟩ := hlo.1 (by exact_mod_cast h)
          rw [← EReal.coe_neg] at hw
          refine ⟨_, ⟨p, left_mem_Icc.2 hpq, rfl⟩, ?_⟩
          rw [hU (hneg rp) hw, ← EReal.coe_neg, (Nat.odd_iff.2 ho).neg_pow, neg_neg]
        · exact ⟨_, ⟨p, left_mem_Icc.2 hpq, rfl⟩, hD rp (hlo.2 (by exact_mod_cast h))⟩
      · have hev : Even n := Nat.even_iff.2 (by omega)
        rcases lt_or_ge p 0 with h | h
        · rcases lt_or_ge q 0 with h' | h'
          · have := hlo.1 (by exact_mod_cast h')
            rw [← EReal.coe_neg] at this
            refine ⟨_, ⟨q, right_mem_Icc.2 hpq, rfl⟩, ?_⟩
            rw [hD (hneg rq) this, hev.neg_pow]
          · refine ⟨_, ⟨0, ⟨h.le, h'⟩, rfl⟩, ?_⟩
            rw [hlo.2.1 (by exact_mod_cast h) (by exact_mod_cast h')]
            simp [hn.ne']
        · exact ⟨_, ⟨p, left_mem_Icc.2 hpq, rfl⟩, hD rp (hlo.2.2 (by exact_mod_cast h))⟩
    have ku : ∃ r ∈ (fun a => a ^ n) '' γ x, u = ((r : ℝ) : EReal) := by
      unfold PowHi at hhi
      rw [hx]
      split_ifs at hhi with ho
      · rcases lt_or_ge q 0 with h | h
        · obtain ⟨w, rfl, hw⟩ := hhi.1 (by exact_mod_cast h)
          rw [← EReal.coe_neg] at hw
          refine ⟨_, ⟨q, right_mem_Icc.2 hpq, rfl⟩, ?_⟩
          rw [hD (hneg rq) hw, ← EReal.coe_neg, (Nat.odd_iff.2 ho).neg_pow, neg_neg]
        · exact ⟨_, ⟨q, right_mem_Icc.2 hpq, rfl⟩, hU rq (hhi.2 (by exact_mod_cast h))⟩
      · have hev : Even n := Nat.even_iff.2 (by omega)
        rw [← EReal.coe_neg, ← EReal.coe_strictMono.monotone.map_max] at hhi
        rcases max_choice (-p) q with h | h <;> rw [h] at hhi
        · refine ⟨_, ⟨p, left_mem_Icc.2 hpq, rfl⟩, ?_⟩
          rw [hU (hneg rp) hhi, hev.neg_pow]
        · exact ⟨_, ⟨q, right_mem_Icc.2 hpq, rfl⟩, hU rq hhi⟩
    obtain ⟨r₁, h1, rfl⟩ := kl
    obtain ⟨r₂, h2, rfl⟩ := ku
    rintro r ⟨p', q', k1, k2, k3, k4⟩
    cases hl.symm.trans k1; cases hu.symm.trans k2
    exact cS.2.isPreconnected.ordConnected.out h1 h2 ⟨EReal.coe_le_coe_iff.1 k3, EReal.coe_le_coe_iff.1 k4⟩
  · rintro _ ⟨a, ha, rfl⟩; exact hin a ha

theorem powI_rets (hk : V.kind = .exact) (hE : ExactBase T) (hf : ModeFree T V.lib) (cx : Cpt (γ x)) {k : ℤ} (hm : k ≠ -2147483648)
    (h0 : ∀ a ∈ γ x, a ≠ 0 ∨ 0 < k) : Rets (powI V.pp x k) {r | ∃ a ∈ γ x, (a ≠ 0 ∨ 0 < k) ∧ r = a ^ k} := by
  obtain ⟨_, _, ix⟩ := has_of_nonempty cx.2.nonempty
  have hT : V.Ok Eq Eq := .inr ⟨hk, hE, hf⟩
  have E : {r | ∃ a ∈ γ x, (a ≠ 0 ∨ 0 < k) ∧ r = a ^ k} = {r | ∃ a ∈ γ x, r = a ^ k} := by
    ext r; exact ⟨fun ⟨a, h, _, e⟩ => ⟨a, h, e⟩, fun ⟨a, h, e⟩ => ⟨a, h, h0 a h, e⟩⟩
  rw [E]
  change Rets (powI (purePolicies V.B V.C) x k) _
  unfold powI
  rw [pure_chk, res_if_false (ix.test V.chk)]
  by_cases hneg : k < 0
  · rw [if_pos hneg, if_neg (show ¬ k = intMin from hm)]
    obtain ⟨p, hp, ep, cp⟩ := powNat_rets V hk hE hf cx (n := (-k).toNat) (by omega)
    have hp : powNat (purePolicies V.B V.C) x (-k).toNat = .ok p := hp
    rw [hp]
    have hne : ∀ a ∈ γ x, a ≠ 0 := fun a ha => (h0 a ha).resolve_right (by omega)
    refine Rets.rel (multInv_rets V hT (ep ▸ cp) ?_) ?_
    · rw [ep]; rintro ⟨a, ha, h⟩; exact pow_ne_zero _ (hne a ha) h.symm
    · have ek : ∀ a : ℝ, (a ^ (-k).toNat)⁻¹ = a ^ k := fun a => by
        rw [← zpow_natCast, ← zpow_neg]; congr 1; omega
      rw [ep]; ext r; constructor
      · rintro ⟨_, ⟨a, ha, rfl⟩, -, rfl⟩; exact ⟨a, ha, ek a⟩
      · rintro ⟨a, ha, rfl⟩; exact ⟨_, ⟨a, ha, rfl⟩, pow_ne_zero _ (hne a ha), (ek a).symm⟩
  · rw [if_neg hneg]
    obtain ⟨n, rfl⟩ : ∃ n : ℕ, k = n := ⟨k.toNat, by omega⟩
    rcases Nat.eq_zero_or_pos n with rfl | hn
    · change Rets (powNat (purePolicies V.B V.C) x 0) _
      obtain ⟨a, ha⟩ := cx.2.nonempty
      rw [powNat_zero V.chk ix fun h => (h0 a ha).elim (fun h' => h' ((zero_bounds ix).1 h ha)) (by simp)]
      have h1 : val (Num.lit 1 : T) = some ((1 : ℝ) : EReal) := by rw [val_one]; rfl
      refine Rets.rel ⟨_, rfl, gamma_single h1, .single 1⟩ ?_
      ext r; simp only [mem_singleton_iff, Nat.cast_zero, zpow_zero]
      exact ⟨fun h => ⟨a, ha, h⟩, fun ⟨_, _, h⟩ => h⟩
    · change Rets (powNat V.pp x n) _
      exact (powNat_rets V hk hE hf cx hn).rel (by simp only [zpow_natCast])

/-! ## Expressions -/

theorem Expr.value_congr (e : Expr T) {v w : ℕ → ℝ} : ∀ {r}, (∀ i ∈ e.vars, v i = w i) → e.Value v r → e.Value w r := by
  induction e with
  | var i => intro r h hr; exact Eq.trans hr (h i (by simp [Expr.vars]))
  | num c => exact fun _ hr => hr
  | un o e ih => rintro r h ⟨a, ha, hr⟩; exact ⟨a, ih h ha, hr⟩
  | pow e k ih => rintro r h ⟨a, ha, hr⟩; exact ⟨a, ih h ha, hr⟩
  | bin o e₁ e₂ ih₁ ih₂ =>
    rintro r h ⟨a, b, ha, hb, hr⟩
    exact ⟨a, b, ih₁ (fun i hi => h i (List.mem_append_left _ hi)) ha, ih₂ (fun i hi => h i (List.mem_append_right _ hi)) hb, hr⟩
  | binL o c e ih => rintro r h ⟨a, b, ha, hb, hr⟩; exact ⟨a, b, ha, ih h hb, hr⟩
  | binR o e c ih => rintro r h ⟨a, b, ha, hb, hr⟩; exact ⟨a, b, ih h ha, hb, hr⟩
  | inter e₁ e₂ ih₁ ih₂ =>
    rintro r h ⟨ha, hb⟩
    exact ⟨ih₁ (fun i hi => h i (List.mem_append_left _ hi)) ha, ih₂ (fun i hi => h i (List.mem_append_right _ hi)) hb⟩
  | fn g e ih => rintro r h ⟨a, ha, hr⟩; exact ⟨a, ih h ha, hr⟩

/-- Two expressions without common variables take their values independently. -/
theorem Expr.independent {e₁ e₂ : Expr T} (h : ∀ i ∈ e₁.vars, i ∉ e₂.vars) {ρ : ℕ → Itv T} {a b : ℝ} (ha : a ∈ e₁.range ρ)
    (hb : b ∈ e₂.range ρ) : ∃ v, (∀ i, v i ∈ γ (ρ i)) ∧ e₁.Value v a ∧ e₂.Value v b := by
  classical
  obtain ⟨v, hv, ha⟩ := ha
  obtain ⟨w, hw, hb⟩ := hb
  refine ⟨fun i => if i ∈ e₁.vars then v i else w i, fun i => ?_, e₁.value_congr (fun i hi => by simp [hi]) ha,
    e₂.value_congr (fun i hi => ?_) hb⟩
  · dsimp only; split_ifs; exacts [hv i, hw i]
  · have : i ∉ e₁.vars := fun h' => h i h' hi
    simp [this]

theorem Expr.eval_rets (hk : V.kind = .exact) (hE : ExactBase T) (hf : ModeFree T V.lib) (K : PiConst T) (fuel : ℕ) (ρ : ℕ → Itv T)
    (hρ : ∀ i, Cpt (γ (ρ i))) (e : Expr T) (hr : e.rational = true) (hn : e.vars.Nodup)
    (hd : ∀ v, (∀ i, v i ∈ γ (ρ i)) → e.Defined v) (hne : (e.range ρ).Nonempty) : Rets (e.eval K fuel V.pp ρ) (e.range ρ) := by
  have hV : V.Ok Eq Eq := .inr ⟨hk, hE, hf⟩
  choose v₀ hv₀ using fun i => (hρ i).2.nonempty
  have ok : ∀ {p : Res (Itv T)} {S : Set ℝ} {g : Itv T → Res (Itv T)} {S' : Set ℝ}, Rets p S →
      (∀ z, γ z = S → Cpt (γ z) → Rets (g z) S') → Rets (p >>= g) S' := by
    rintro p S g S' ⟨z, rfl, rfl, cz⟩ h
    exact h z rfl cz
  have ok2 : ∀ {p p' : Res (Itv T)} {S₁ S₂ : Set ℝ} {g : Itv T × Itv T → Res (Itv T)} {S' : Set ℝ}, Rets p S₁ → Rets p' S₂ →
      (∀ z z', γ z = S₁ → γ z' = S₂ → Cpt (γ z) → Cpt (γ z') → Rets (g (z, z')) S') → Rets (pair p p' >>= g) S' := by
    rintro p p' S₁ S₂ g S' ⟨z, rfl, rfl, cz⟩ ⟨z', rfl, rfl, cz'⟩ h
    exact h z z' rfl rfl cz cz'
  induction e with
  | var i =>
    refine ⟨ρ i, rfl, ?_, ?_⟩ <;> have : (Expr.var i : Expr T).range ρ = γ (ρ i) := by
      classical
      ext r; constructor
      · rintro ⟨v, hv, rfl⟩; exact hv i
      · intro h
        refine ⟨fun j => if j = i then r else v₀ j, fun j => ?_, by simp [Expr.Value]⟩
        dsimp only; split_ifs with h'
        · exact h' ▸ h
        · exact hv₀ j
    · exact this.symm
    · rw [this]; exact hρ i
  | num c =>
    obtain ⟨r, v₁, -, hc⟩ := hne
    obtain ⟨z, hz, -, -, e⟩ := C36_num V hc
    have e' : (Expr.num c : Expr T).range ρ = {r} := by
      ext r'; constructor
      · rintro ⟨v, hv, h⟩; exact EReal.coe_eq_coe_iff.1 (Option.some.inj (Eq.trans (Eq.symm h) hc))
      · rintro rfl; exact ⟨v₀, hv₀, hc⟩
    rw [e']
    exact ⟨z, hz, e, .single r⟩
  | un o e ih =>
    obtain ⟨h1, h2⟩ := Bool.and_eq_true_iff.1 (show (o != .sqrt && e.rational) = true from hr)
    refine ok (ih h2 hn (fun v hv => (hd v hv).1) (by obtain ⟨r, v, hv, a, ha, -⟩ := hne; exact ⟨a, v, hv, ha⟩)) fun z ez cz => ?_
    refine (UnOp.I_rets V hV hE.neg o (by simpa using h1) cz ?_).rel ?_
    · rw [ez]; rintro a ⟨v, hv, ha⟩; exact (hd v hv).2 a ha
    · rw [ez]; ext r; constructor
      · rintro ⟨a, ⟨v, hv, ha⟩, h⟩; exact ⟨v, hv, a, ha, h⟩
      · rintro ⟨v, hv, a, ha, h⟩; exact ⟨a, ⟨v, hv, ha⟩, h⟩
  | pow e k ih =>
    obtain ⟨h1, h2⟩ := Bool.and_eq_true_iff.1 (show (k != -2147483648 && e.rational) = true from hr)
    refine ok (ih h2 hn (fun v hv => (hd v hv).1) (by obtain ⟨r, v, hv, a, ha, -⟩ := hne; exact ⟨a, v, hv, ha⟩)) fun z ez cz => ?_
    refine (powI_rets V hk hE hf cz (by simpa using h1) ?_).rel ?_
    · rw [ez]; rintro a ⟨v, hv, ha⟩; exact (hd v hv).2 a ha
    · rw [ez]; ext r; constructor
      · rintro ⟨a, ⟨v, hv, ha⟩, h⟩; exact ⟨v, hv, a, ha, h⟩
      · rintro ⟨v, hv, a, ha, h⟩; exact ⟨a, ⟨v, hv, ha⟩, h⟩
  | bin o e₁ e₂ ih₁ ih₂ =>
    obtain ⟨h1, h2⟩ := Bool.and_eq_true_iff.1 (show (e₁.rational && e₂.rational) = true from hr)
    obtain ⟨n1, n2, n3⟩ := List.nodup_append.1 hn
    have hi : ∀ i ∈ e₁.vars, i ∉ e₂.vars := fun i hi hi' => n3 i hi i hi' rfl
    obtain ⟨r₀, v₀, hv₀, a₀, b₀, ha₀, hb₀, -⟩ := hne
    refine ok2 (ih₁ h1 n1 (fun v hv => (hd v hv).1) ⟨a₀, v₀, hv₀, ha₀⟩) (ih₂ h2 n2 (fun v hv => (hd v hv).2.1) ⟨b₀, v₀, hv₀, hb₀⟩)
      fun z z' ez ez' cz cz' => ?_
    refine (BinOp.II_rets V hV o cz cz' ?_).rel ?_
    · rw [ez, ez']; intro a ha b hb
      obtain ⟨v, hv, ha, hb⟩ := Expr.independent hi ha hb
      exact (hd v hv).2.2 a b ha hb
    · rw [ez, ez']; ext r; constructor
      · rintro ⟨a, ha, b, hb, h⟩
        obtain ⟨v, hv, ha, hb⟩ := Expr.independent hi ha hb
        exact ⟨v, hv, a, b, ha, hb, h⟩
      · rintro ⟨v, hv, a, b, ha, hb, h⟩; exact ⟨a, ⟨v, hv, ha⟩, b, ⟨v, hv, hb⟩, h⟩
  | binL o c e ih =>
    obtain ⟨r₀, v₀, hv₀, c₀, b₀, hc, hb₀, -⟩ := hne
    have hu : ∀ a : ℝ, val c = some (a : EReal) → a = c₀ := fun a h =>
      EReal.coe_eq_coe_iff.1 (Option.some.inj (Eq.trans (Eq.symm h) hc))
    refine ok (ih hr hn (fun v hv => (hd v hv).1) ⟨b₀, v₀, hv₀, hb₀⟩) fun z ez cz => ?_
    refine (BinOp.TI_rets V hV o hc cz ?_).rel ?_
    · rw [ez]; rintro b ⟨v, hv, hb⟩; exact (hd v hv).2 c₀ b hc hb
    · rw [ez]; ext r; constructor
      · rintro ⟨b, ⟨v, hv, hb⟩, h⟩; exact ⟨v, hv, c₀, b, hc, hb, h⟩
      · rintro ⟨v, hv, a, b, ha, hb, h⟩; exact ⟨b, ⟨v, hv, hb⟩, hu a ha ▸ h⟩
  | binR o e c ih =>
    obtain ⟨r₀, v₀, hv₀, a₀, c₀, ha₀, hc, -⟩ := hne
    have hu : ∀ a : ℝ, val c = some (a : EReal) → a = c₀ := fun a h =>
      EReal.coe_eq_coe_iff.1 (Option.some.inj (Eq.trans (Eq.symm h) hc))
    refine ok (ih hr hn (fun v hv => (hd v hv).1) ⟨a₀, v₀, hv₀, ha₀⟩) fun z ez cz => ?_
    refine (BinOp.IT_rets V hV o hc cz ?_).rel ?_
    · rw [ez]; rintro a ⟨v, hv, ha⟩; exact (hd v hv).2 a c₀ ha hc
    · rw [ez]; ext r; constructor
      · rintro ⟨a, ⟨v, hv, ha⟩, h⟩; exact ⟨v, hv, a, c₀, ha, hc, h⟩
      · rintro ⟨v, hv, a, b, ha, hb, h⟩; exact ⟨a, ⟨v, hv, ha⟩, hu b hb ▸ h⟩
  | inter e₁ e₂ ih₁ ih₂ =>
    obtain ⟨h1, h2⟩ := Bool.and_eq_true_iff.1 (show (e₁.rational && e₂.rational) = true from hr)
    obtain ⟨n1, n2, n3⟩ := List.nodup_append.1 hn
    have hi : ∀ i ∈ e₁.vars, i ∉ e₂.vars := fun i hi hi' => n3 i hi i hi' rfl
    obtain ⟨r₀, v₀, hv₀, ha₀, hb₀⟩ := hne
    refine ok2 (ih₁ h1 n1 (fun v hv => (hd v hv).1) ⟨r₀, v₀, hv₀, ha₀⟩) (ih₂ h2 n2 (fun v hv => (hd v hv).2) ⟨r₀, v₀, hv₀, hb₀⟩)
      fun z z' ez ez' cz cz' => ?_
    have hne : (γ z ∩ γ z').Nonempty := by rw [ez, ez']; exact ⟨r₀, ⟨v₀, hv₀, ha₀⟩, ⟨v₀, hv₀, hb₀⟩⟩
    obtain ⟨w, hw, ew⟩ := C23_intersect V hne
    refine Rets.rel ⟨w, hw, ew, ?_⟩ ?_
    · obtain ⟨p, q, hp, e⟩ := cz.icc
      obtain ⟨p', q', hp', e'⟩ := cz'.icc
      rw [e, e', Icc_inter_Icc] at hne ⊢
      exact .of_icc (nonempty_Icc.1 hne)
    · rw [ez, ez']; ext r; constructor
      · rintro ⟨ha, hb⟩
        obtain ⟨v, hv, ha, hb⟩ := Expr.independent hi ha hb
        exact ⟨v, hv, ha, hb⟩
      · rintro ⟨v, hv, ha, hb⟩; exact ⟨⟨v, hv, ha⟩, ⟨v, hv, hb⟩⟩
  | fn g e ih => cases hr

omit [Num T] [Val T] [NumLaws T] in
theorem Expr.rename_congr (e : Expr T) {σ τ : ℕ → ℕ} : (∀ i ∈ e.vars, σ i = τ i) → e.rename σ = e.rename τ := by
  induction e with
  | var i => intro h; exact congrArg Expr.var (h i (by simp [Expr.vars]))
  | num c => intro _; rfl
  | un o e ih => intro h; exact congrArg (Expr.un o) (ih h)
  | pow e k ih => intro h; exact congrArg (Expr.pow · k) (ih h)
  | bin o e₁ e₂ ih₁ ih₂ =>
    intro h
    exact congrArg₂ (Expr.bin o) (ih₁ fun i hi => h i (List.mem_append_left _ hi)) (ih₂ fun i hi => h i (List.mem_append_right _ hi))
  | binL o c e ih => intro h; exact congrArg (Expr.binL o c) (ih h)
  | binR o e c ih => intro h; exact congrArg (Expr.binR o · c) (ih h)
  | inter e₁ e₂ ih₁ ih₂ =>
    intro h
    exact congrArg₂ Expr.inter (ih₁ fun i hi => h i (List.mem_append_left _ hi)) (ih₂ fun i hi => h i (List.mem_append_right _ hi))
  | fn g e ih => intro h; exact congrArg (Expr.fn g) (ih h)

omit [Num T] [Val T] [NumLaws T] in
theorem Expr.decouple (e : Expr T) : ∀ k, ∃ (e' : Expr T) (σ : ℕ → ℕ) (k' : ℕ), (∀ i ∈ e'.vars, k ≤ i ∧ i < k') ∧ k ≤ k' ∧ e'.vars.Nodup ∧ e'.rename σ = e := by
  have two : ∀ {e₁ e₂ : Expr T} (F : Expr T → Expr T → Expr T), (∀ a b, (F a b).vars = a.vars ++ b.vars) →
      (∀ a b σ, (F a b).rename σ = F (a.rename σ) (b.rename σ)) →
      (∀ k, ∃ (e' : Expr T) (σ : ℕ → ℕ) (k' : ℕ), (∀ i ∈ e'.vars, k ≤ i ∧ i < k') ∧ k ≤ k' ∧ e'.vars.Nodup ∧ e'.rename σ = e₁) →
      (∀ k, ∃ (e' : Expr T) (σ : ℕ → ℕ) (k' : ℕ), (∀ i ∈ e'.vars, k ≤ i ∧ i < k') ∧ k ≤ k' ∧ e'.vars.Nodup ∧ e'.rename σ = e₂) →
      ∀ k, ∃ (e' : Expr T) (σ : ℕ → ℕ) (k' : ℕ), (∀ i ∈ e'.vars, k ≤ i ∧ i < k') ∧ k ≤ k' ∧ e'.vars.Nodup ∧ e'.rename σ = F e₁ e₂ := by
    intro e₁ e₂ F hF hG ih₁ ih₂ k
    obtain ⟨f₁, σ₁, k₁, a1, a2, a3, a4⟩ := ih₁ k
    obtain ⟨f₂, σ₂, k₂, b1, b2, b3, b4⟩ := ih₂ k₁
    refine ⟨F f₁ f₂, fun i => if i < k₁ then σ₁ i else σ₂ i, k₂, ?_, a2.trans b2, ?_, ?_⟩
    · intro i hi
      rw [hF] at hi
      rcases List.mem_append.1 hi with h | h
      · exact ⟨(a1 i h).1, (a1 i h).2.trans_le b2⟩
      · exact ⟨a2.trans (b1 i h).1, (b1 i h).2⟩
    · rw [hF]
      exact List.nodup_append.2 ⟨a3, b3, fun i hi j hj e => by have := (a1 i hi).2; have := (b1 j hj).1; omega⟩
    · rw [hG]
      congr 1
      · rw [← a4]; exact f₁.rename_congr fun i hi => if_pos (a1 i hi).2
      · rw [← b4]; exact f₂.rename_congr fun i hi => if_neg (not_lt.2 (b1 i hi).1)
  have one : ∀ {e : Expr T} (F : Expr T → Expr T), (∀ a, (F a).vars = a.vars) → (∀ a σ, (F a).rename σ = F (a.rename σ)) →
      (∀ k, ∃ (e' : Expr T) (σ : ℕ → ℕ) (k' : ℕ), (∀ i ∈ e'.vars, k ≤ i ∧ i < k') ∧ k ≤ k' ∧ e'.vars.Nodup ∧ e'.rename σ = e) →
      ∀ k, ∃ (e' : Expr T) (σ : ℕ → ℕ) (k' : ℕ), (∀ i ∈ e'.vars, k ≤ i ∧ i < k') ∧ k ≤ k' ∧ e'.vars.Nodup ∧ e'.rename σ = F e := by
    intro e F hF hG ih k
    obtain ⟨f, σ, k', a1, a2, a3, a4⟩ := ih k
    exact ⟨F f, σ, k', by rw [hF]; exact a1, a2, by rw [hF]; exact a3, by rw [hG, a4]⟩
  induction e with
  | var i => exact fun k => ⟨.var k, fun _ => i, k + 1, fun j hj => by obtain rfl := List.mem_singleton.1 hj; omega, by omega,
      List.nodup_singleton k, rfl⟩
  | num c => exact fun k => ⟨.num c, id, k, (fun j hj => absurd hj List.not_mem_nil), le_rfl, List.nodup_nil, rfl⟩
  | un o e ih => exact one (Expr.un o) (fun _ => rfl) (fun _ _ => rfl) ih
  | pow e k ih => exact one (Expr.pow · k) (fun _ => rfl) (fun _ _ => rfl) ih
  | bin o e₁ e₂ ih₁ ih₂ => exact two (Expr.bin o) (fun _ _ => rfl) (fun _ _ _ => rfl) ih₁ ih₂
  | binL o c e ih => exact one (Expr.binL o c) (fun _ => rfl) (fun _ _ => rfl) ih
  | binR o e c ih => exact one (Expr.binR o · c) (fun _ => rfl) (fun _ _ => rfl) ih
  | inter e₁ e₂ ih₁ ih₂ => exact two Expr.inter (fun _ _ => rfl) (fun _ _ _ => rfl) ih₁ ih₂
  | fn g e ih => exact one (Expr.fn g) (fun _ => rfl) (fun _ _ => rfl) ih

omit [Val T] [NumLaws T] in
theorem Expr.eval_rename {m : Type → Type} [Eff m] (P : Policies m T) (K : PiConst T) (fuel : ℕ) (σ : ℕ → ℕ) (ρ : ℕ → Itv T) (e : Expr T) :
    (e.rename σ).eval K fuel P ρ = e.eval K fuel P fun i => ρ (σ i) := by
  induction e with
  | var i => rfl
  | num c => rfl
  | un o e ih => change (do let x ← (e.rename σ).eval K fuel P ρ; _) = _; rw [ih]; rfl
  | pow e k ih => change (do let x ← (e.rename σ).eval K fuel P ρ; _) = _; rw [ih]; rfl
  | bin o e₁ e₂ ih₁ ih₂ => change (do let x ← pair ((e₁.rename σ).eval K fuel P ρ) _; _) = _; rw [ih₁, ih₂]; rfl
  | binL o c e ih => change (do let x ← (e.rename σ).eval K fuel P ρ; _) = _; rw [ih]; rfl
  | binR o e c ih => change (do let x ← (e.rename σ).eval K fuel P ρ; _) = _; rw [ih]; rfl
  | inter e₁ e₂ ih₁ ih₂ => change (do let x ← pair ((e₁.rename σ).eval K fuel P ρ) _; _) = _; rw [ih₁, ih₂]; rfl
  | fn g e ih => change (do let x ← (e.rename σ).eval K fuel P ρ; _) = _; rw [ih]; rfl

end
end BI
