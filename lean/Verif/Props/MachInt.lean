import Verif.Model.MachInt
import Verif.Proofs.Bridge
import Verif.Proofs.PlatformLaws
import Verif.Proofs.Instances
/-!
# C46: intervals of built-in integers

`MInt w` is a signed integer type of `w + 4` bits (`int`: `w = 28`, `long`: `w = 60`). `V.kind = .exact`: the default
rounding policy for such a type. Outcome `Err.base` is signed overflow, that is undefined behaviour.

Missing from the claim (theorems `_partial`): unsigned types and types narrower than `int`, for which it is false
(`C46_short_wraps`, `C46_unsigned_wraps`).
-/

set_option linter.unusedSectionVars false

namespace BI
open Set

variable {w : ℕ}

/-! ## The base type -/

theorem MInt.ext' {a b : MInt w} (h : a.z = b.z) : a = b := by cases a; cases b; cases h; rfl

theorem MInt.fit_some {z : ℤ} {a : MInt w} (h : MInt.fit w z = some a) : a.z = z := by
  unfold MInt.fit at h
  split at h
  · cases h; rfl
  · cases h

theorem MInt.fit_ok {z : ℤ} (h1 : -(2 ^ (w + 3)) ≤ z) (h2 : z < 2 ^ (w + 3)) : MInt.fit w z = some ⟨z, h1, h2⟩ :=
  dif_pos ⟨h1, h2⟩

instance : NumLaws (MInt w) where
  lt_iff a b := by
    change decide (a.z < b.z) = true ↔ _
    rw [decide_eq_true_iff]
    constructor
    · intro h; exact ⟨_, _, rfl, rfl, by exact_mod_cast h⟩
    · rintro ⟨x, y, h1, h2, h3⟩; cases h1; cases h2; exact_mod_cast h3
  le_iff a b := by
    change decide (a.z ≤ b.z) = true ↔ _
    rw [decide_eq_true_iff]
    constructor
    · intro h; exact ⟨_, _, rfl, rfl, by exact_mod_cast h⟩
    · rintro ⟨x, y, h1, h2, h3⟩; cases h1; cases h2; exact_mod_cast h3
  eq_iff a b := by
    change decide (a.z = b.z) = true ↔ _
    rw [decide_eq_true_iff]
    constructor
    · intro h; exact ⟨_, rfl, by change some (((b.z : ℝ)) : EReal) = _; rw [← h]⟩
    · rintro ⟨x, h1, h2⟩
      rw [← h1] at h2
      have : ((b.z : ℝ) : EReal) = ((a.z : ℝ) : EReal) := by injection h2
      exact_mod_cast this.symm
  lit n h := by
    have h8 : (8 : ℤ) ≤ 2 ^ (w + 3) := by
      rw [pow_add]; nlinarith [one_le_pow₀ (n := w) (show (1 : ℤ) ≤ 2 by norm_num)]
    rw [abs_le] at h
    change some ((((((MInt.fit w n).getD (MInt.zero w)).z : ℤ) : ℝ)) : EReal) = _
    rw [MInt.fit_ok (by omega) (by omega)]; rfl
  neg a b h := by
    change some ((b.z : ℝ) : EReal) = some (-((a.z : ℝ) : EReal))
    rw [MInt.fit_some h]; push_cast; rfl
  nan h := by cases h
  noNan _ a h := by cases h
  inf h := by cases h

/-- Exact results, or none. -/
theorem int_dir (lib : Lib (MInt w)) : DirLaws False (T := MInt w) Eq Eq (pureArith .exact lib) where
  D_le h := h.le
  U_ge h := h.ge
  D_min h h' := by rw [h, h']
  U_max h h' := by rw [h, h']
  D_exact _ _ _ := rfl
  U_exact _ _ _ := rfl
  neg h := h.elim
  addDown a b x y ha hb _ := Post.ofOpt (fun c hc => ⟨_, rfl, by
    cases ha; cases hb; rw [MInt.fit_some hc]; push_cast; rfl⟩) (fun h => h.elim)
  addUp a b x y ha hb _ := Post.ofOpt (fun c hc => ⟨_, rfl, by
    cases ha; cases hb; rw [MInt.fit_some hc]; push_cast; rfl⟩) (fun h => h.elim)
  subDown a b x y ha hb _ := Post.ofOpt (fun c hc => ⟨_, rfl, by
    cases ha; cases hb; rw [MInt.fit_some hc]; push_cast; rfl⟩) (fun h => h.elim)
  subUp a b x y ha hb _ := Post.ofOpt (fun c hc => ⟨_, rfl, by
    cases ha; cases hb; rw [MInt.fit_some hc]; push_cast; rfl⟩) (fun h => h.elim)
  mulDown a b x y ha hb _ := Post.ofOpt (fun c hc => ⟨_, rfl, by
    cases ha; cases hb; rw [MInt.fit_some hc]; push_cast; rfl⟩) (fun h => h.elim)
  mulUp a b x y ha hb _ := Post.ofOpt (fun c hc => ⟨_, rfl, by
    cases ha; cases hb; rw [MInt.fit_some hc]; push_cast; rfl⟩) (fun h => h.elim)

theorem int_gamma (x : Itv (MInt w)) : γ x = Icc (x.lower.z : ℝ) (x.upper.z : ℝ) := by
  ext r
  constructor
  · rintro ⟨l, u, h1, h2, h3, h4⟩
    cases h1; cases h2
    exact ⟨EReal.coe_le_coe_iff.1 h3, EReal.coe_le_coe_iff.1 h4⟩
  · rintro ⟨h1, h2⟩
    exact ⟨_, _, rfl, rfl, EReal.coe_le_coe_iff.2 h1, EReal.coe_le_coe_iff.2 h2⟩

theorem int_bounded (x : Itv (MInt w)) : Bornology.IsBounded (γ x) := by
  rw [int_gamma]; exact Metric.isBounded_Icc _ _

theorem int_has {x : Itv (MInt w)} (h : x.lower.z ≤ x.upper.z) : Has x (x.lower.z : ℝ) (x.upper.z : ℝ) :=
  ⟨rfl, rfl, EReal.coe_ne_top _, EReal.coe_ne_bot _, by exact_mod_cast h⟩

theorem int_modeFree {lib : Lib (MInt w)} (h : ∀ f (x : MInt w) a b, lib f a x = lib f b x) : ModeFree (MInt w) lib :=
  ⟨fun _ _ _ _ => rfl, fun _ _ _ _ => rfl, fun _ _ _ _ => rfl, fun _ _ _ _ => rfl, fun _ _ _ => rfl, h⟩

/-! ## The statements -/

/-- The numbers between the extreme values of the type. -/
def MInt.range (w : ℕ) : Set ℝ := Icc (-(2 ^ (w + 3))) (2 ^ (w + 3) - 1)

/-- The call returns the interval `S` if it is representable, otherwise it runs into signed overflow. -/
def Env.Computes (V : Env (MInt w)) (op : M V.ctl.W (Itv (MInt w))) (S : Set ℝ) : Prop :=
  (S ⊆ MInt.range w → V.Returns op fun z => γ z = S) ∧ (¬ S ⊆ MInt.range w → V.Throws op .base)

/-- The default rounding policy, a mathematical library that ignores rounding modes. -/
structure IntEnv (V : Env (MInt w)) : Prop where
  exact : V.kind = .exact
  lib : ∀ f (x : MInt w) a b, V.lib f a x = V.lib f b x

theorem int_range (z : Itv (MInt w)) : γ z ⊆ MInt.range w := by
  rw [int_gamma]
  intro r hr
  refine ⟨le_trans ?_ hr.1, hr.2.trans ?_⟩
  · have := z.lower.lo
    have : ((-(2 ^ (w + 3)) : ℤ) : ℝ) ≤ z.lower.z := by exact_mod_cast this
    push_cast at this; exact this
  · have : z.upper.z ≤ 2 ^ (w + 3) - 1 := by have := z.upper.hi; omega
    have : ((z.upper.z : ℤ) : ℝ) ≤ ((2 ^ (w + 3) - 1 : ℤ) : ℝ) := by exact_mod_cast this
    push_cast at this; exact this

theorem computes_of (V : Env (MInt w)) (hV : IntEnv V) {op : M V.ctl.W (Itv (MInt w))} {q : Res (Itv (MInt w))} {S : Set ℝ}
    (hs : ∀ J, PSim (outer V.laws) J V.P V.B V.C → Sim (outer V.laws) op q)
    (h1 : Post False q fun z => γ z = S) (h2 : S ⊆ MInt.range w → ∃ z, q = .ok z) : V.Computes op S := by
  obtain ⟨J, hJ⟩ := V.sim (fun _ => int_modeFree hV.lib)
  refine ⟨fun h => ?_, fun h => ?_⟩
  · obtain ⟨z, hz⟩ := h2 h
    refine V.returns_of (hs J hJ) ?_
    rw [hz] at h1 ⊢; exact h1
  · refine V.throws_of (hs J hJ) ?_
    cases q with
    | ok z => exact absurd (h1 ▸ int_range z) h
    | error e => rw [h1.1]

theorem fit_of {S : Set ℝ} (hS : S ⊆ MInt.range w) {z : ℤ} (h : (z : ℝ) ∈ S) : ∃ a, MInt.fit w z = some a := by
  obtain ⟨h1, h2⟩ := hS h
  have h1 : ((-(2 ^ (w + 3)) : ℤ) : ℝ) ≤ z := by push_cast; exact h1
  have h2 : (z : ℝ) ≤ ((2 ^ (w + 3) - 1 : ℤ) : ℝ) := by push_cast; exact h2
  have h1 : -(2 ^ (w + 3)) ≤ z := by exact_mod_cast h1
  have h2 : z ≤ 2 ^ (w + 3) - 1 := by exact_mod_cast h2
  exact ⟨_, MInt.fit_ok h1 (by omega)⟩

variable (V : Env (MInt w)) {x y : Itv (MInt w)}

theorem int_B (hV : IntEnv V) : V.B = pureArith .exact V.lib := by
  have := hV.exact
  unfold Env.B; rw [this]

theorem C46_add_partial (hV : IntEnv V) (hx : x.lower.z ≤ x.upper.z) (hy : y.lower.z ≤ y.upper.z) :
    V.Computes (addII V.P x y) {r | ∃ a ∈ γ x, ∃ b ∈ γ y, a + b = r} := by
  have ix := int_has hx
  have iy := int_has hy
  refine computes_of V hV (fun _ h => addII_sim h x y) ?_ fun hS => ?_
  · rw [int_B V hV]
    exact (addII_post (int_dir V.lib).op V.chk ix iy).mono fun z hz =>
      hz.exact2 ix iy (int_bounded x) (int_bounded y) (fun p => p.1 + p.2) (by fun_prop)
  · obtain ⟨l, hl⟩ := fit_of hS (z := x.lower.z + y.lower.z)
      ⟨_, by rw [int_gamma]; exact left_mem_Icc.2 (by exact_mod_cast hx), _,
        by rw [int_gamma]; exact left_mem_Icc.2 (by exact_mod_cast hy), by push_cast; rfl⟩
    obtain ⟨u, hu⟩ := fit_of hS (z := x.upper.z + y.upper.z)
      ⟨_, by rw [int_gamma]; exact right_mem_Icc.2 (by exact_mod_cast hx), _,
        by rw [int_gamma]; exact right_mem_Icc.2 (by exact_mod_cast hy), by push_cast; rfl⟩
    refine ⟨⟨l, u⟩, ?_⟩
    unfold addII
    rw [pure_chk, res_if_false (ix.test2 V.chk iy), int_B V hV]
    change mk2 (ofOpt (MInt.fit w _)) (ofOpt (MInt.fit w _)) = _
    rw [hl, hu]; rfl

theorem C46_sub_partial (hV : IntEnv V) (hx : x.lower.z ≤ x.upper.z) (hy : y.lower.z ≤ y.upper.z) :
    V.Computes (subII V.P x y) {r | ∃ a ∈ γ x, ∃ b ∈ γ y, a - b = r} := by
  have ix := int_has hx
  have iy := int_has hy
  refine computes_of V hV (fun _ h => subII_sim h x y) ?_ fun hS => ?_
  · rw [int_B V hV]
    exact (subII_post (int_dir V.lib).op V.chk ix iy).mono fun z hz =>
      hz.exact2 ix iy (int_bounded x) (int_bounded y) (fun p => p.1 - p.2) (by fun_prop)
  · obtain ⟨l, hl⟩ := fit_of hS (z := x.lower.z - y.upper.z)
      ⟨_, by rw [int_gamma]; exact left_mem_Icc.2 (by exact_mod_cast hx), _,
        by rw [int_gamma]; exact right_mem_Icc.2 (by exact_mod_cast hy), by push_cast; rfl⟩
    obtain ⟨u, hu⟩ := fit_of hS (z := x.upper.z - y.lower.z)
      ⟨_, by rw [int_gamma]; exact right_mem_Icc.2 (by exact_mod_cast hx), _,
        by rw [int_gamma]; exact left_mem_Icc.2 (by exact_mod_cast hy), by push_cast; rfl⟩
    refine ⟨⟨l, u⟩, ?_⟩
    unfold subII
    rw [pure_chk, res_if_false (ix.test2 V.chk iy), int_B V hV]
    change mk2 (ofOpt (MInt.fit w _)) (ofOpt (MInt.fit w _)) = _
    rw [hl, hu]; rfl

theorem C46_mul_partial (hV : IntEnv V) (hx : x.lower.z ≤ x.upper.z) (hy : y.lower.z ≤ y.upper.z) :
    V.Computes (mulII V.P x y) {r | ∃ a ∈ γ x, ∃ b ∈ γ y, a * b = r} := by
  have ix := int_has hx
  have iy := int_has hy
  refine computes_of V hV (fun _ h => mulII_sim h x y) ?_ fun hS => ?_
  · rw [int_B V hV]
    exact (mulII_post (int_dir V.lib).op V.chk ix iy).mono fun z hz =>
      hz.exact2 ix iy (int_bounded x) (int_bounded y) (fun p => p.1 * p.2) (by fun_prop)
  · have xl : (x.lower.z : ℝ) ∈ γ x := by rw [int_gamma]; exact left_mem_Icc.2 (by exact_mod_cast hx)
    have xu : (x.upper.z : ℝ) ∈ γ x := by rw [int_gamma]; exact right_mem_Icc.2 (by exact_mod_cast hx)
    have yl : (y.lower.z : ℝ) ∈ γ y := by rw [int_gamma]; exact left_mem_Icc.2 (by exact_mod_cast hy)
    have yu : (y.upper.z : ℝ) ∈ γ y := by rw [int_gamma]; exact right_mem_Icc.2 (by exact_mod_cast hy)
    obtain ⟨c1, h1⟩ := fit_of hS (z := x.lower.z * y.lower.z) ⟨_, xl, _, yl, by push_cast; rfl⟩
    obtain ⟨c2, h2⟩ := fit_of hS (z := x.lower.z * y.upper.z) ⟨_, xl, _, yu, by push_cast; rfl⟩
    obtain ⟨c3, h3⟩ := fit_of hS (z := x.upper.z * y.lower.z) ⟨_, xu, _, yl, by push_cast; rfl⟩
    obtain ⟨c4, h4⟩ := fit_of hS (z := x.upper.z * y.upper.z) ⟨_, xu, _, yu, by push_cast; rfl⟩
    unfold mulII
    rw [pure_chk, res_if_false (ix.test2 V.chk iy), pure_scope, int_B V hV]
    have key : ∀ (A : Arith Res (MInt w)) (a b c d : MInt w), (∀ p q, A.mulDown p q = ofOpt (MInt.fit w (p.z * q.z))) →
        (∀ p q, A.mulUp p q = ofOpt (MInt.fit w (p.z * q.z))) → (∃ e, MInt.fit w (a.z * c.z) = some e) →
        (∃ e, MInt.fit w (a.z * d.z) = some e) → (∃ e, MInt.fit w (b.z * c.z) = some e) →
        (∃ e, MInt.fit w (b.z * d.z) = some e) → ∃ z, mulBody A a b c d = .ok z := by
      rintro A a b c d e1 e2 ⟨_, h1⟩ ⟨_, h2⟩ ⟨_, h3⟩ ⟨_, h4⟩
      unfold mulBody mk2
      simp only [e1, e2, h1, h2, h3, h4]
      split_ifs <;> exact ⟨_, rfl⟩
    exact key _ _ _ _ _ (fun _ _ => rfl) (fun _ _ => rfl) ⟨_, h1⟩ ⟨_, h2⟩ ⟨_, h3⟩ ⟨_, h4⟩

/-! ## Division -/

/-- The integer part. -/
noncomputable def itrunc (q : ℝ) : ℤ := if 0 ≤ q then ⌊q⌋ else ⌈q⌉

theorem itrunc_neg (q : ℝ) : itrunc (-q) = -itrunc q := by
  unfold itrunc
  rcases lt_trichotomy q 0 with h | h | h
  · rw [if_pos (by linarith), if_neg (by linarith), Int.floor_neg]
  · simp [h]
  · rw [if_neg (by linarith), if_pos h.le, Int.ceil_neg]

theorem itrunc_mono {p q : ℝ} (h : p ≤ q) : itrunc p ≤ itrunc q := by
  unfold itrunc
  split_ifs with h1 h2 h2
  · exact Int.floor_le_floor h
  · exact absurd (h1.trans h) h2
  · exact le_trans (Int.ceil_le.2 (by push_cast; linarith)) (Int.floor_nonneg.2 h2)
  · exact Int.ceil_le_ceil h

theorem itrunc_div (a b : ℤ) : itrunc ((a : ℝ) / b) = a.tdiv b := by
  have key : ∀ a b : ℤ, 0 ≤ a → 0 ≤ b → itrunc ((a : ℝ) / b) = a.tdiv b := by
    intro a b ha hb
    have h0 : (0 : ℝ) ≤ (a : ℝ) / b := div_nonneg (by exact_mod_cast ha) (by exact_mod_cast hb)
    rcases eq_or_lt_of_le hb with rfl | hb
    · simp [itrunc]
    unfold itrunc
    rw [if_pos h0, Int.tdiv_eq_ediv_of_nonneg ha, Int.floor_eq_iff]
    have hb' : (0 : ℝ) < b := by exact_mod_cast hb
    rw [le_div_iff₀ hb', div_lt_iff₀ hb']
    have h1 := Int.ediv_mul_le a hb.ne'
    have h2 := Int.lt_ediv_add_one_mul_self a hb
    exact ⟨by exact_mod_cast h1, by exact_mod_cast h2⟩
  rcases le_total 0 a with ha | ha <;> rcases le_total 0 b with hb | hb
  · exact key a b ha hb
  · have := key a (-b) ha (by omega)
    rw [Int.tdiv_neg, Int.cast_neg, div_neg, itrunc_neg] at this; omega
  · have := key (-a) b (by omega) hb
    rw [Int.neg_tdiv, Int.cast_neg, neg_div, itrunc_neg] at this; omega
  · have := key (-a) (-b) (by omega) (by omega)
    rw [Int.neg_tdiv, Int.tdiv_neg, Int.cast_neg, Int.cast_neg, neg_div_neg_eq] at this; omega

theorem tdiv_le {a b c d : ℤ} (h : (a : ℝ) / b ≤ (c : ℝ) / d) : a.tdiv b ≤ c.tdiv d := by
  rw [← itrunc_div, ← itrunc_div]; exact itrunc_mono h

/-- The numbers between two quotients `a / b` of integers of `x` and `y`, as the language computes them. -/
def TruncQuot (x y : Itv (MInt w)) : Set ℝ :=
  {r | ∃ a b c d : ℤ, (a : ℝ) ∈ γ x ∧ (b : ℝ) ∈ γ y ∧ (c : ℝ) ∈ γ x ∧ (d : ℝ) ∈ γ y ∧
    ((a.tdiv b : ℤ) : ℝ) ≤ r ∧ r ≤ ((c.tdiv d : ℤ) : ℝ)}

theorem truncQuot_eq {a b c d : ℤ} (ha : (a : ℝ) ∈ γ x) (hb : (b : ℝ) ∈ γ y) (hc : (c : ℝ) ∈ γ x) (hd : (d : ℝ) ∈ γ y)
    (h : ∀ p ∈ γ x, ∀ q ∈ γ y, (a : ℝ) / b ≤ p / q ∧ p / q ≤ (c : ℝ) / d) :
    TruncQuot x y = Icc ((a.tdiv b : ℤ) : ℝ) ((c.tdiv d : ℤ) : ℝ) := by
  ext r
  constructor
  · rintro ⟨a', b', c', d', h1, h2, h3, h4, h5, h6⟩
    have k1 := tdiv_le (h _ h1 _ h2).1
    have k2 := tdiv_le (h _ h3 _ h4).2
    exact ⟨le_trans (by exact_mod_cast k1) h5, h6.trans (by exact_mod_cast k2)⟩
  · rintro ⟨h1, h2⟩
    exact ⟨a, b, c, d, ha, hb, hc, hd, h1, h2⟩

theorem isNeg_int (a : MInt w) : isNeg a = decide (a.z < 0) := by
  rw [isNeg_eq (x := ((a.z : ℝ) : EReal)) rfl]
  congr 1
  exact propext ⟨fun h => by exact_mod_cast h, fun h => by exact_mod_cast h⟩

/-- Both bounds by one division each. -/
theorem mk2_quot {B : Arith Res (MInt w)} (hd : ∀ p q, B.divDown p q = ofOpt (if q.z = 0 then none else MInt.fit w (p.z.tdiv q.z)))
    (hu : ∀ p q, B.divUp p q = ofOpt (if q.z = 0 then none else MInt.fit w (p.z.tdiv q.z)))
    {a b c d : MInt w} (ha : (a.z : ℝ) ∈ γ x) (hb : (b.z : ℝ) ∈ γ y) (hc : (c.z : ℝ) ∈ γ x) (hd' : (d.z : ℝ) ∈ γ y) (h0 : (0 : ℝ) ∉ γ y)
    (h : ∀ p ∈ γ x, ∀ q ∈ γ y, (a.z : ℝ) / b.z ≤ p / q ∧ p / q ≤ (c.z : ℝ) / d.z) :
    Post False (mk2 (B.divDown a b) (B.divUp c d)) (fun z => γ z = TruncQuot x y) ∧
      (TruncQuot x y ⊆ MInt.range w → ∃ z, (mk2 (B.divDown a b) (B.divUp c d) : Res _) = .ok z) := by
  have b0 : b.z ≠ 0 := fun e => by rw [e] at hb; exact h0 (by exact_mod_cast hb)
  have d0 : d.z ≠ 0 := fun e => by rw [e] at hd'; exact h0 (by exact_mod_cast hd')
  have e := truncQuot_eq ha hb hc hd' h
  have hle : ((a.z.tdiv b.z : ℤ) : ℝ) ≤ ((c.z.tdiv d.z : ℤ) : ℝ) := by
    have := tdiv_le ((h _ ha _ hb).1.trans (h _ ha _ hb).2)
    exact_mod_cast this
  rw [hd, hu, if_neg b0, if_neg d0, e]
  constructor
  · cases h1 : MInt.fit w (a.z.tdiv b.z) with
    | none => exact ⟨rfl, id⟩
    | some l =>
      cases h2 : MInt.fit w (c.z.tdiv d.z) with
      | none => exact ⟨rfl, id⟩
      | some u =>
        change γ (⟨l, u⟩ : Itv (MInt w)) = _
        rw [int_gamma, MInt.fit_some h1, MInt.fit_some h2]
  · intro hS
    obtain ⟨l, h1⟩ := fit_of hS (left_mem_Icc.2 hle)
    obtain ⟨u, h2⟩ := fit_of hS (right_mem_Icc.2 hle)
    rw [h1, h2]; exact ⟨_, rfl⟩

/-- Division by an interval without zero returns the smallest interval of integers that contains every truncated quotient of
integers of the operands, or overflows (the smallest number divided by -1). It does not contain the other quotients:
`C46_div_truncates`. -/
theorem C46_div_partial (hV : IntEnv V) (hx : x.lower.z ≤ x.upper.z) (hy : y.lower.z ≤ y.upper.z) (h0 : (0 : ℝ) ∉ γ y) :
    V.Computes (divII V.P x y) (TruncQuot x y) := by
  have ix := int_has hx
  have iy := int_has hy
  have xl : (x.lower.z : ℝ) ∈ γ x := by rw [int_gamma]; exact left_mem_Icc.2 (by exact_mod_cast hx)
  have xu : (x.upper.z : ℝ) ∈ γ x := by rw [int_gamma]; exact right_mem_Icc.2 (by exact_mod_cast hx)
  have yl : (y.lower.z : ℝ) ∈ γ y := by rw [int_gamma]; exact left_mem_Icc.2 (by exact_mod_cast hy)
  have yu : (y.upper.z : ℝ) ∈ γ y := by rw [int_gamma]; exact right_mem_Icc.2 (by exact_mod_cast hy)
  have key : Post False (divII V.pp x y) (fun z => γ z = TruncQuot x y) ∧
      (TruncQuot x y ⊆ MInt.range w → ∃ z, divII V.pp x y = .ok z) := by
    have h0' : ¬ (((y.lower.z : ℝ) : EReal) ≤ 0 ∧ 0 ≤ ((y.upper.z : ℝ) : EReal)) := fun h => h0 ((mem_zero_iff iy).2 h)
    unfold divII
    rw [pure_chk, res_if_false (ix.test2 V.chk iy), res_if (zeroIn_eq V.chk iy)]
    have epp : V.pp = purePolicies (pureArith .exact V.lib) V.C := by unfold Env.pp; rw [int_B V hV]
    simp only [h0', decide_false, Bool.false_eq_true, if_false, epp]
    have hdn : ∀ p q : MInt w, (pureArith .exact V.lib).divDown p q = ofOpt (if q.z = 0 then none else MInt.fit w (p.z.tdiv q.z)) := fun _ _ => rfl
    have hup : ∀ p q : MInt w, (pureArith .exact V.lib).divUp p q = ofOpt (if q.z = 0 then none else MInt.fit w (p.z.tdiv q.z)) := fun _ _ => rfl
    have hs : (0 < y.lower.z) ∨ (y.upper.z < 0) := by
      by_contra hcon
      push Not at hcon
      exact h0' ⟨by exact_mod_cast hcon.1, by exact_mod_cast hcon.2⟩
    unfold divNonZeroII
    rw [pure_scope, pure_rnd]
    simp only [isNeg_int, decide_eq_true_eq]
    have gx : ∀ p ∈ γ x, (x.lower.z : ℝ) ≤ p ∧ p ≤ x.upper.z := fun p hp => by rw [int_gamma] at hp; exact hp
    have gy : ∀ q ∈ γ y, (y.lower.z : ℝ) ≤ q ∧ q ≤ y.upper.z := fun p hp => by rw [int_gamma] at hp; exact hp
    have iff : ∀ {a b c d : ℝ}, (0 < b ∧ 0 < d) ∨ (b < 0 ∧ d < 0) → a * d ≤ c * b → a / b ≤ c / d := by
      rintro a b c d (⟨h1, h2⟩ | ⟨h1, h2⟩) h
      · rw [div_le_div_iff₀ h1 h2]; exact h
      · rw [← neg_div_neg_eq a, ← neg_div_neg_eq c, div_le_div_iff₀ (by linarith) (by linarith)]; linarith
    have hs' : (0 < (y.lower.z : ℝ)) ∨ ((y.upper.z : ℝ) < 0) := by exact_mod_cast hs
    have hy' : (y.lower.z : ℝ) ≤ y.upper.z := by exact_mod_cast hy
    have sg : ∀ q ∈ γ y, ∀ r ∈ γ y, (0 < q ∧ 0 < r) ∨ (q < 0 ∧ r < 0) := fun q hq r hr => by
      have := gy q hq; have := gy r hr
      rcases hs' with h | h
      · left; constructor <;> linarith
      · right; constructor <;> linarith
    split_ifs with h1 h2 h3 h4 h5
    · refine mk2_quot hdn hup xu yl xl yu h0 fun p hp q hq => ⟨iff (sg _ yl _ hq) ?_, iff (sg _ hq _ yu) ?_⟩ <;>
      · obtain ⟨p1, p2⟩ := gx p hp; obtain ⟨q1, q2⟩ := gy q hq
        have h1 : (x.upper.z : ℝ) < 0 := by exact_mod_cast h1
        have h2 : (y.upper.z : ℝ) < 0 := by exact_mod_cast h2
        nlinarith
    · refine mk2_quot hdn hup xl yl xu yu h0 fun p hp q hq => ⟨iff (sg _ yl _ hq) ?_, iff (sg _ hq _ yu) ?_⟩ <;>
      · obtain ⟨p1, p2⟩ := gx p hp; obtain ⟨q1, q2⟩ := gy q hq
        have h1 : (x.upper.z : ℝ) < 0 := by exact_mod_cast h1
        have h2 : 0 < (y.lower.z : ℝ) := by exact_mod_cast hs.resolve_right h2
        nlinarith
    · refine mk2_quot hdn hup xu yu xl yu h0 fun p hp q hq => ⟨iff (sg _ yu _ hq) ?_, iff (sg _ hq _ yu) ?_⟩ <;>
      · obtain ⟨p1, p2⟩ := gx p hp; obtain ⟨q1, q2⟩ := gy q hq
        have h1 : 0 ≤ (x.upper.z : ℝ) := by exact_mod_cast not_lt.1 h1
        have h3 : (x.lower.z : ℝ) < 0 := by exact_mod_cast h3
        have h2 : (y.upper.z : ℝ) < 0 := by exact_mod_cast h4
        nlinarith
    · refine mk2_quot hdn hup xl yl xu yl h0 fun p hp q hq => ⟨iff (sg _ yl _ hq) ?_, iff (sg _ hq _ yl) ?_⟩ <;>
      · obtain ⟨p1, p2⟩ := gx p hp; obtain ⟨q1, q2⟩ := gy q hq
        have h1 : 0 ≤ (x.upper.z : ℝ) := by exact_mod_cast not_lt.1 h1
        have h3 : (x.lower.z : ℝ) < 0 := by exact_mod_cast h3
        have h2 : 0 < (y.lower.z : ℝ) := by exact_mod_cast hs.resolve_right h4
        nlinarith
    · refine mk2_quot hdn hup xu yu xl yl h0 fun p hp q hq => ⟨iff (sg _ yu _ hq) ?_, iff (sg _ hq _ yl) ?_⟩ <;>
      · obtain ⟨p1, p2⟩ := gx p hp; obtain ⟨q1, q2⟩ := gy q hq
        have h3 : 0 ≤ (x.lower.z : ℝ) := by exact_mod_cast not_lt.1 h3
        have h2 : (y.upper.z : ℝ) < 0 := by exact_mod_cast h5
        nlinarith
    · refine mk2_quot hdn hup xl yu xu yl h0 fun p hp q hq => ⟨iff (sg _ yu _ hq) ?_, iff (sg _ hq _ yl) ?_⟩ <;>
      · obtain ⟨p1, p2⟩ := gx p hp; obtain ⟨q1, q2⟩ := gy q hq
        have h3 : 0 ≤ (x.lower.z : ℝ) := by exact_mod_cast not_lt.1 h3
        have h2 : 0 < (y.lower.z : ℝ) := by exact_mod_cast hs.resolve_right h5
        nlinarith
  exact computes_of V hV (fun _ h => divII_sim h x y) key.1 key.2

/-! ## What goes wrong -/

/-- `interval<int>` with the default policies. -/
def intEnv (ndebug : Bool) : Env (MInt 28) where
  ctl := c99 Unit feGlibc
  laws := c99_laws Unit feGlibc feGlibc_inj
  kind := .exact
  lib := fun _ _ _ => none
  checks := .strict
  ndebug := ndebug

abbrev intState (nd : Bool) : (intEnv nd).State := ⟨(⟨.near, ()⟩ : FEnv Unit), fun _ => true⟩

/-- `[1,1] / [2,2]` is `[0,0]`, which does not contain `1/2`. -/
theorem C46_div_truncates : (divII (intEnv false).P (litI 1 1) (litI 2 2) (intState false)).1 = .ok (litI 0 0) ∧
    (1 / 2 : ℝ) ∉ γ (litI 0 0 : Itv (MInt 28)) := by
  refine ⟨by decide +kernel, fun h => ?_⟩
  rw [mem_litI (by decide) (by decide)] at h
  norm_num at h

/-- Dividing by an interval with zero inside asks for infinities: an assertion, or, with `NDEBUG`, the interval zero. -/
theorem C46_div_zero_inside :
    (divII (intEnv false).P (litI 1 1) (litI (-1) 1) (intState false)).1 = .error .assertion ∧
    (divII (intEnv true).P (litI 1 1) (litI (-1) 1) (intState true)).1 = .ok (litI 0 0) ∧
    (1 : ℝ) ∉ γ (litI 0 0 : Itv (MInt 28)) := by
  refine ⟨by decide +kernel, by decide +kernel, fun h => ?_⟩
  rw [mem_litI (by decide) (by decide)] at h
  norm_num at h

/-- `interval<short>`: overflow is silent, the bounds wrap around. -/
def shortEnv : Env (WInt (-32768) 16) where
  ctl := c99 Unit feGlibc
  laws := c99_laws Unit feGlibc feGlibc_inj
  kind := .exact
  lib := fun _ _ _ => none
  checks := .strict
  ndebug := false

theorem C46_short_wraps :
    (addII shortEnv.P ⟨⟨30000⟩, ⟨30000⟩⟩ ⟨⟨30000⟩, ⟨30000⟩⟩ (⟨(⟨.near, ()⟩ : FEnv Unit), fun _ => true⟩ : shortEnv.State)).1 =
      .ok ⟨⟨-5536⟩, ⟨-5536⟩⟩ := by decide +kernel

/-- `interval<unsigned>`: `[0,0] - [1,1]`. -/
def unsignedEnv : Env (WInt 0 32) where
  ctl := c99 Unit feGlibc
  laws := c99_laws Unit feGlibc feGlibc_inj
  kind := .exact
  lib := fun _ _ _ => none
  checks := .strict
  ndebug := false

theorem C46_unsigned_wraps :
    (subII unsignedEnv.P ⟨⟨0⟩, ⟨0⟩⟩ ⟨⟨1⟩, ⟨1⟩⟩ (⟨(⟨.near, ()⟩ : FEnv Unit), fun _ => true⟩ : unsignedEnv.State)).1 =
      .ok ⟨⟨4294967295⟩, ⟨4294967295⟩⟩ := by decide +kernel

/-! ## The hypotheses can be met -/

example := C46_add_partial (intEnv false) ⟨rfl, fun _ _ _ _ => rfl⟩ (x := ⟨⟨2147483000, by decide, by decide⟩, ⟨2147483647, by decide, by decide⟩⟩)
  (y := litI (-3) 4) (by decide) (by decide)
example := C46_sub_partial (intEnv true) ⟨rfl, fun _ _ _ _ => rfl⟩ (x := litI (-3) 4) (y := litI 1 2) (by decide) (by decide)
example := C46_mul_partial (intEnv true) ⟨rfl, fun _ _ _ _ => rfl⟩ (x := litI (-3) 4) (y := litI (-1) 2) (by decide) (by decide)
/-- `[5, 7] / [-3, -2]` -/
example : (divII (intEnv false).P (litI 5 7) (litI (-3) (-2)) (intState false)).1 = .ok (litI (-3) (-1)) := by decide +kernel
example := C46_div_partial (intEnv false) ⟨rfl, fun _ _ _ _ => rfl⟩ (x := litI (-3) 4) (y := litI 1 2) (by decide) (by decide)
  (by rw [mem_litI (by decide) (by decide)]; norm_num)
/-- The smallest `int` divided by -1 overflows. -/
example : (divII (intEnv false).P ⟨⟨-2147483648, by decide, by decide⟩, ⟨0, by decide, by decide⟩⟩ (litI (-1) (-1)) (intState false)).1 = .error .base := by
  decide +kernel

end BI
