import Verif.Proofs.ExFilter1
import Mathlib.LinearAlgebra.Matrix.Gershgorin
import Mathlib.Topology.Instances.Matrix
/-! # examples/filter.cpp, `det_sign_algo2` -/

set_option linter.unusedSectionVars false

namespace BI
open Set

/-! ## Simulation of the verification -/

section
variable {W : Type} {T : Type} [Num T] {I J : Inv W} {P : Policies (M W) T} {B : Arith Res T} {C : Checking T}

theorem rowU_sim (h : PSim I J P B C) (l : ℕ → T) (v : ℕ → ℕ → T) (d : ℕ) (junk : ℕ → Itv T) :
    Sim I (rowU P l v d junk) (rowU (purePolicies B C) l v d junk) :=
  (forRange_sim (fun _ _ => Sim.pure _) _ _ _).bind fun m1 =>
    forRange_sim (fun j m1 => forRange_sim (fun k m1 => (mulTT_sim h _ _).bind fun q =>
      (addII_sim h _ _).bind fun e => Sim.pure _) _ _ _) _ _ _

theorem rowL_sim (h : PSim I J P B C) (m1 : ℕ → Itv T) (v : ℕ → ℕ → T) (d i : ℕ) (junk : ℕ → Itv T) :
    Sim I (rowL P m1 v d i junk) (rowL (purePolicies B C) m1 v d i junk) :=
  (forRange_sim (fun _ _ => Sim.pure _) _ _ _).bind fun m2 =>
    (forRange_sim (fun j m2 => forRange_sim (fun k m2 => (mulIT_sim h _ _).bind fun q =>
      (addII_sim h _ _).bind fun e => Sim.pure _) _ _ _) _ _ _).bind fun m2 =>
    (subIT_sim h _ _).bind fun e => Sim.pure _

/-- Inside the rounding object. -/
theorem rowNorm_sim (h : PSim I J P B C) (d : ℕ) (v : ℕ → Itv T) :
    Sim J (rowNorm P d v) (rowNorm (purePolicies B C) d v) := by
  obtain rfl := h.chk
  exact forRange_sim (fun k ss => (Sim.lift _).bind fun n => h.rnd.s_addUp _ _) _ _ _

theorem check2_sim (h : PSim J J P B C) (a v : ℕ → ℕ → T) (p : ℕ → ℕ) (d : ℕ) (j1 j2 : ℕ → Itv T) (n i : ℕ) :
    Sim J (check2 P a v p d j1 j2 n i) (check2 (purePolicies B C) a v p d j1 j2 n i) := by
  induction n generalizing i with
  | zero => exact Sim.pure _
  | succ n ih =>
    exact (rowU_sim h _ _ _ _).bind fun m1 => (rowL_sim h _ _ _ _ _).bind fun m2 => (rowNorm_sim h _ _).bind fun ss =>
      Sim.ite (fun _ => Sim.pure _) fun _ => ih _
end

/-! ## Determinants -/

/-- A matrix close to the identity has a positive determinant. -/
theorem det_pos_near_one {d : ℕ} (M : Matrix (Fin d) (Fin d) ℝ) (h : ∀ i, ∑ j, |(M - 1) i j| < 1) : 0 < M.det := by
  let N : ℝ → Matrix (Fin d) (Fin d) ℝ := fun t => 1 + t • (M - 1)
  have hN : ∀ t ∈ Icc (0 : ℝ) 1, (N t).det ≠ 0 := by
    intro t ht
    refine det_ne_zero_of_sum_row_lt_diag fun k => ?_
    have e : ∑ j ∈ Finset.univ.erase k, ‖N t k j‖ = t * ∑ j ∈ Finset.univ.erase k, |(M - 1) k j| := by
      rw [Finset.mul_sum]
      refine Finset.sum_congr rfl fun j hj => ?_
      have hjk : k ≠ j := (Finset.ne_of_mem_erase hj).symm
      simp only [N, Matrix.add_apply, Matrix.one_apply_ne hjk, zero_add, Matrix.smul_apply, smul_eq_mul, Real.norm_eq_abs,
        abs_mul, abs_of_nonneg ht.1]
    have e2 : ‖N t k k‖ ≥ 1 - t * |(M - 1) k k| := by
      simp only [N, Matrix.add_apply, Matrix.one_apply_eq, Matrix.smul_apply, smul_eq_mul, Real.norm_eq_abs]
      have h1 := neg_abs_le (t * (M - 1) k k)
      have h2 := le_abs_self (1 + t * (M - 1) k k)
      rw [abs_mul, abs_of_nonneg ht.1] at h1
      linarith
    rw [e]
    have e3 := Finset.add_sum_erase Finset.univ (fun j => |(M - 1) k j|) (Finset.mem_univ k)
    have h1 := h k
    have h0 : 0 ≤ |(M - 1) k k| + ∑ j ∈ Finset.univ.erase k, |(M - 1) k j| := by positivity
    have h4 := mul_le_of_le_one_left h0 ht.2
    have h5 : t * (|(M - 1) k k| + ∑ j ∈ Finset.univ.erase k, |(M - 1) k j|) < 1 := by
      refine h4.trans_lt ?_
      rw [e3]; exact h1
    rw [mul_add] at h5
    linarith
  have hc : Continuous fun t => (N t).det := by
    refine Continuous.matrix_det ?_
    exact continuous_const.add (continuous_id.smul continuous_const)
  have h0 : (N 0).det = 1 := by simp [N]
  have h1 : (N 1).det = M.det := by simp [N]
  by_contra hcon
  rw [not_lt, ← h1] at hcon
  have := intermediate_value_Icc' (zero_le_one' ℝ) hc.continuousOn (show (0 : ℝ) ∈ Icc ((N 1).det) ((N 0).det) from
    ⟨hcon, by rw [h0]; exact zero_le_one⟩)
  obtain ⟨t, ht, ht'⟩ := this
  exact hN t ht ht'

/-- The upper factor of a matrix that holds two triangular factors. -/
def upPart (L : ℕ → ℕ → ℝ) (j k : ℕ) : ℝ := if j ≤ k then L j k else 0
/-- The lower factor, with a unit diagonal. -/
def lowPart (L : ℕ → ℕ → ℝ) (j k : ℕ) : ℝ := if k < j then L j k else if j = k then 1 else 0

theorem det_upPart {d : ℕ} (L : ℕ → ℕ → ℝ) : (sq d (upPart L)).det = ∏ c ∈ Finset.range d, L c c := by
  rw [det_tri]
  · exact Finset.prod_congr rfl fun c _ => by simp [upPart]
  · intro c _ k _ hck
    simp [upPart, hck]

theorem det_lowPart {d : ℕ} (L : ℕ → ℕ → ℝ) : (sq d (lowPart L)).det = 1 := by
  have h := det_tri (d := d) (fun j k => lowPart L k j) (fun c _ k _ hck => by
    simp only [lowPart]
    rw [if_neg (by omega), if_neg (by omega)])
  have e : (sq d fun j k => lowPart L k j) = (sq d (lowPart L)).transpose := rfl
  rw [e, Matrix.det_transpose] at h
  rw [h]
  exact Finset.prod_eq_one fun c _ => by simp [lowPart]

theorem sum_range_fin {d : ℕ} (f : ℕ → ℝ) : ∑ k ∈ Finset.range d, f k = ∑ k : Fin d, f k := Finset.sum_range f

/-- The verified matrix. -/
theorem det_verified {d : ℕ} {A L : ℕ → ℕ → ℝ} {p : ℕ → ℕ} {σ : Equiv.Perm (Fin d)} (hp : ∀ k : Fin d, p k = σ k)
    (h : ∀ i < d, ∑ k ∈ Finset.range d, |(∑ j ∈ Finset.range d,
      (∑ l ∈ Finset.range d, A (p i) l * upPart L l j) * lowPart L j k) - if i = k then 1 else 0| < 1) :
    0 < (Equiv.Perm.sign σ : ℝ) * (sq d A).det * ∏ c ∈ Finset.range d, L c c := by
  have h1 := det_pos_near_one ((sq d A).submatrix σ id * sq d (upPart L) * sq d (lowPart L)) fun i => by
    have := h i i.2
    rw [sum_range_fin] at this
    convert this using 3 with k
    rw [Matrix.sub_apply, Matrix.mul_apply, Matrix.one_apply, sum_range_fin]
    congr 1
    · refine Finset.sum_congr rfl fun j _ => ?_
      rw [Matrix.mul_apply, sum_range_fin]
      congr 1
      refine Finset.sum_congr rfl fun l _ => ?_
      rw [hp i]; rfl
    · simp [Fin.ext_iff]
  rw [Matrix.det_mul, Matrix.det_mul, Matrix.det_permute, det_upPart, det_lowPart, mul_one] at h1
  exact h1

/-! ## The verification -/

section
variable {T : Type} [Num T] [Val T] [NumLaws T] {V : Env T} {l : ℕ → T} {v : ℕ → ℕ → T} {A : ℕ → ℝ} {L : ℕ → ℕ → ℝ} {d : ℕ}

variable {ex : Prop}

theorem rp_zeroI : Rp ex 0 (⟨Num.lit 0, Num.lit 0⟩ : Itv T) := by
  have h0 : val (Num.lit 0 : T) = some ((0 : ℝ) : EReal) := by rw [val_zero]; rfl
  refine ⟨?_, fun _ => gamma_single h0⟩
  rw [gamma_single h0]; rfl

theorem rp_add (hV : V.Directed) (he : ex → V.Ok Eq Eq) {x y : Itv T} {r q : ℝ} (hx : Rp ex r x) (hy : Rp ex q y) :
    Post True (addII V.pp x y) (Rp ex (r + q)) := by
  obtain ⟨_, _, ix⟩ := hx.has
  obtain ⟨_, _, iy⟩ := hy.has
  exact rp_of hV he (fun D U hDU h => addII_post (h.dir hDU).op V.chk ix iy) ⟨r, hx.1, q, hy.1, rfl⟩ fun e => by
    rw [hx.2 e, hy.2 e, image2_singleton]

theorem rp_mulTT (hV : V.Directed) (he : ex → V.Ok Eq Eq) {s t : T} {r q : ℝ} (hs : val s = some (r : EReal))
    (ht : val t = some (q : EReal)) : Post True (mulTT V.pp s t) (Rp ex (r * q)) :=
  rp_of hV he (fun D U hDU h => mulTT_post (h.dir hDU).op V.chk hs ht) rfl fun _ => rfl

theorem rp_mulIT (hV : V.Directed) (he : ex → V.Ok Eq Eq) {x : Itv T} {t : T} {r q : ℝ} (hx : Rp ex r x)
    (ht : val t = some (q : EReal)) : Post True (mulIT V.pp x t) (Rp ex (r * q)) := by
  obtain ⟨_, _, ix⟩ := hx.has
  exact rp_of hV he (fun D U hDU h => mulIT_post (h.dir hDU).op V.chk ht ix) ⟨r, hx.1, q, rfl, rfl⟩ fun e => by
    rw [hx.2 e, image2_singleton]

theorem rp_subIT (hV : V.Directed) (he : ex → V.Ok Eq Eq) {x : Itv T} {t : T} {r q : ℝ} (hx : Rp ex r x)
    (ht : val t = some (q : EReal)) : Post True (subIT V.pp x t) (Rp ex (r - q)) := by
  obtain ⟨_, _, ix⟩ := hx.has
  exact rp_of hV he (fun D U hDU h => subIT_post (h.dir hDU).op V.chk ht ix) ⟨r, hx.1, q, rfl, rfl⟩ fun e => by
    rw [hx.2 e, image2_singleton]

/-- Initialisation of a vector. -/
theorem fill_post {f : ℕ → Itv T} (junk : ℕ → Itv T) :
    Post True (forRange 0 d (fun j m => (pure (Function.update m j (f j)) : Res (ℕ → Itv T))) junk) fun m =>
      ∀ k < d, m k = f k := by
  refine forRange_post (fun n (m : ℕ → Itv T) => ∀ k < n, m k = f k) (zero_add _) (fun k hk => by omega) ?_
  intro n m _ _ h
  refine Post.pure fun k hk => ?_
  by_cases e : k = n
  · rw [e, Function.update_self]
  · rw [Function.update_of_ne e]; exact h k (by omega)

theorem rowU_post (hV : V.Directed) (he : ex → V.Ok Eq Eq) (hl : ∀ j < d, val (l j) = some (A j : EReal))
    (hv : ∀ i < d, ∀ j < d, val (v i j) = some (L i j : EReal)) (junk : ℕ → Itv T) :
    Post True (rowU V.pp l v d junk) fun m1 => ∀ k < d, Rp ex (∑ j ∈ Finset.range d, A j * upPart L j k) (m1 k) := by
  refine (fill_post junk).bind fun m1 h0 => ?_
  refine forRange_post (fun n (m1 : ℕ → Itv T) => ∀ k < d, Rp ex (∑ j ∈ Finset.range n, A j * upPart L j k) (m1 k)) (zero_add _)
    (fun k hk => by rw [Finset.sum_range_zero, h0 k hk]; exact rp_zeroI) ?_
  intro j m1 _ hj h
  refine (forRange_post (fun n (m1 : ℕ → Itv T) =>
      (∀ k < d, k < n → Rp ex (∑ j ∈ Finset.range (j + 1), A j * upPart L j k) (m1 k)) ∧
      (∀ k < d, n ≤ k → Rp ex (∑ j ∈ Finset.range j, A j * upPart L j k) (m1 k))) (by omega)
      ⟨fun k hk hkj => ?_, fun k hk _ => h k hk⟩ ?_).mono fun m1 hm k hk => hm.1 k hk hk
  · rw [Finset.sum_range_succ]
    have : upPart L j k = 0 := if_neg (by omega)
    rw [this, mul_zero, add_zero]
    exact h k hk
  · rintro n m1 hn hnd ⟨h1, h2⟩
    refine (rp_mulTT hV he (hl j hj) (hv j hj n hnd)).bind fun q hq => (rp_add hV he (h2 n hnd le_rfl) hq).bind fun e he' => ?_
    refine Post.pure ⟨fun k hk hkn => ?_, fun k hk hkn => ?_⟩
    · by_cases e' : k = n
      · subst e'
        rw [Function.update_self, Finset.sum_range_succ]
        have : upPart L j k = L j k := if_pos hn
        rw [this]; exact he'
      · rw [Function.update_of_ne e']; exact h1 k hk (by omega)
    · rw [Function.update_of_ne (by omega)]; exact h2 k hk (by omega)

theorem rowL_post (hV : V.Directed) (he : ex → V.Ok Eq Eq) {m1 : ℕ → Itv T} (hm : ∀ k < d, Rp ex (A k) (m1 k))
    (hv : ∀ i < d, ∀ j < d, val (v i j) = some (L i j : EReal)) {i : ℕ} (hi : i < d) (junk : ℕ → Itv T) :
    Post True (rowL V.pp m1 v d i junk) fun m2 => ∀ k < d,
      Rp ex ((∑ j ∈ Finset.range d, A j * lowPart L j k) - if i = k then 1 else 0) (m2 k) := by
  have key : ∀ k < d, ∑ j ∈ Finset.range d, A j * lowPart L j k =
      A k + ∑ j ∈ Finset.range d, if k < j then A j * L j k else 0 := by
    intro k hk
    have : ∀ j, A j * lowPart L j k = (if j = k then A j else 0) + if k < j then A j * L j k else 0 := by
      intro j
      unfold lowPart
      by_cases h1 : k < j
      · rw [if_pos h1, if_pos h1, if_neg (by omega)]; ring
      · rw [if_neg h1, if_neg h1]
        split_ifs <;> ring
    simp only [this, Finset.sum_add_distrib]
    rw [Finset.sum_ite_eq' (Finset.range d) k A, if_pos (Finset.mem_range.2 hk)]
  refine (fill_post junk).bind fun m2 h0 => ?_
  refine (forRange_post (hi := d) (fun n (m2 : ℕ → Itv T) => ∀ k < d,
    Rp ex (A k + ∑ j ∈ Finset.range n, (if k < j then A j * L j k else 0)) (m2 k)) (by omega)
    (fun k hk => by
      rw [Finset.sum_range_one, if_neg (by omega), add_zero, h0 k hk]; exact hm k hk) ?_).bind fun m2 h2 => ?_
  · intro j m2 hj hjd h
    refine (forRange_post (fun n (m2 : ℕ → Itv T) =>
        (∀ k < d, k < n → Rp ex (A k + ∑ j ∈ Finset.range (j + 1), (if k < j then A j * L j k else 0)) (m2 k)) ∧
        (∀ k < d, n ≤ k → Rp ex (A k + ∑ j ∈ Finset.range j, (if k < j then A j * L j k else 0)) (m2 k))) (zero_add j)
        ⟨fun k hk hkj => by omega, fun k hk _ => h k hk⟩ ?_).mono fun m2 hm k hk => ?_
    · rintro n m2 _ hn ⟨h1, h2⟩
      refine (rp_mulIT hV he (hm j hjd) (hv j hjd n (by omega))).bind fun q hq =>
        (rp_add hV he (h2 n (by omega) le_rfl) hq).bind fun e he' => Post.pure ⟨fun k hk hkn => ?_, fun k hk hkn => ?_⟩
      · by_cases e' : k = n
        · subst e'
          rw [Function.update_self, Finset.sum_range_succ, if_pos hn, ← add_assoc]
          exact he'
        · rw [Function.update_of_ne e']; exact h1 k hk (by omega)
      · rw [Function.update_of_ne (by omega)]; exact h2 k hk (by omega)
    · by_cases hkj : k < j
      · exact hm.1 k hk hkj
      · rw [Finset.sum_range_succ, if_neg hkj, add_zero]
        exact hm.2 k hk (by omega)
  · have h1 : val (Num.lit 1 : T) = some ((1 : ℝ) : EReal) := by rw [val_one]; rfl
    refine (rp_subIT hV he (h2 i hi) h1).bind fun e he' => Post.pure fun k hk => ?_
    rw [key k hk]
    by_cases e' : k = i
    · subst e'; rw [Function.update_self, if_pos rfl]; exact he'
    · rw [Function.update_of_ne e', if_neg (fun h => e' h.symm), sub_zero]; exact h2 k hk

theorem rowNorm_post (hV : V.Directed) {m : ℕ → Itv T} (hm : ∀ k < d, A k ∈ γ (m k)) :
    Post True (rowNorm V.pp d m) fun ss => ∃ e, val ss = some e ∧ ((∑ k ∈ Finset.range d, |A k| : ℝ) : EReal) ≤ e := by
  have hA := hV.dir du_weak
  refine forRange_post (fun n (ss : T) => ∃ e, val ss = some e ∧ ((∑ k ∈ Finset.range n, |A k| : ℝ) : EReal) ≤ e) (zero_add _)
    ⟨0, val_zero, by simp⟩ ?_
  rintro n ss _ hn ⟨e, he, hle⟩
  obtain ⟨a, b, ix⟩ := has_of_mem (hm n hn)
  obtain ⟨w, hw, vw⟩ := norm_has (Env.Ok.neg hV) V.chk ix
  have hab : ((|A n| : ℝ) : EReal) ≤ max (-a) b := by
    rcases abs_choice (A n) with h | h <;> rw [h]
    · exact (ix.ub (hm n hn)).trans (le_max_right _ _)
    · rw [EReal.coe_neg]
      exact (EReal.neg_le_neg_iff.2 (ix.lb (hm n hn))).trans (le_max_left _ _)
  have e0 : e ≠ ⊥ := fun h => by rw [h, le_bot_iff] at hle; exact EReal.coe_ne_bot _ hle
  have w0 : max (-a) b ≠ ⊥ := fun h => by rw [h, le_bot_iff] at hab; exact EReal.coe_ne_bot _ hab
  have e2 : (lift (norm V.pp.chk (m n)) : Res T) = .ok w := hw
  simp only [e2]
  refine (hA.addUp ss w _ _ he vw ⟨.inr w0, .inl e0⟩).mono fun c ⟨z, hz, hz'⟩ => ⟨z, hz, ?_⟩
  rw [Finset.sum_range_succ, EReal.coe_add]
  exact (add_le_add hle hab).trans (hA.U_ge hz')

/-- If the check succeeds, the product of the factors is close to the identity. -/
theorem check2_post (hV : V.Directed) {a : ℕ → ℕ → T} {A : ℕ → ℕ → ℝ} {p : ℕ → ℕ} (hp : ∀ k < d, p k < d)
    (ha : ∀ i < d, ∀ j < d, val (a i j) = some (A i j : EReal))
    (hv : ∀ i < d, ∀ j < d, val (v i j) = some (L i j : EReal)) (j1 j2 : ℕ → Itv T) {n i : ℕ} (hn : i + n = d) :
    Post True (check2 V.pp a v p d j1 j2 n i) fun b => b = true → ∀ r < d, i ≤ r → ∑ k ∈ Finset.range d,
      |(∑ j ∈ Finset.range d, (∑ l ∈ Finset.range d, A (p r) l * upPart L l j) * lowPart L j k) - if r = k then 1 else 0| < 1 := by
  induction n generalizing i with
  | zero => exact Post.pure fun _ r h1 h2 => by omega
  | succ n ih =>
    have hi : i < d := by omega
    refine (rowU_post (ex := False) hV (fun h => h.elim) (fun j hj => ha (p i) (hp i hi) j hj) hv j1).bind fun m1 h1 => ?_
    refine (rowL_post hV (fun h => h.elim) h1 hv hi j2).bind fun m2 h2 => (rowNorm_post hV fun k hk => (h2 k hk).1).bind fun ss ⟨e, he, hle⟩ => ?_
    have h1' : val (Num.lit 1 : T) = some ((1 : ℝ) : EReal) := by rw [val_one]; rfl
    rw [le_eq h1' he]
    by_cases h : ((1 : ℝ) : EReal) ≤ e
    · rw [decide_eq_true h, if_pos rfl]
      exact Post.pure fun h => by cases h
    · rw [decide_eq_false h, if_neg (by simp)]
      refine (ih (by omega)).mono fun b hb hbt r hr hir => ?_
      by_cases hri : r = i
      · subst hri
        exact_mod_cast hle.trans_lt (not_le.1 h)
      · exact hb hbt r hr (by omega)
end

/-! ## The floating-point part -/

section
variable {T : Type} [Num T] [Val T] [NumLaws T]

/-- The operations of the base type always have a result. -/
structure TotalOps (T : Type) [Num T] : Prop where
  neg : ∀ a : T, Num.neg a ≠ none
  sub : ∀ r (a b : T), Num.sub r a b ≠ none
  mul : ∀ r (a b : T), Num.mul r a b ≠ none
  div : ∀ r (a b : T), Num.div r a b ≠ none

/-- A non-zero quotient `1 / p` has the sign that `p < 0` tells. -/
def RecipSign (T : Type) [Num T] [Val T] : Prop := ∀ r (p c : T) (v : ℝ), Num.div r (Num.lit 1) p = some c →
  val c = some (v : EReal) → v ≠ 0 → (v < 0 ↔ Num.lt p (Num.lit 0) = true)

variable {V : Env T} {d : ℕ}

theorem bind_at {W α β : Type} {op : M W α} {f : α → M W β} {s : St W} {a : α} (h : (op s).1 = .ok a) :
    ∀ _u : Unit, (op >>= f) s = f a (op s).2 := by
  intro _
  change M.bind op f s = _
  unfold M.bind
  rcases ho : op s with ⟨o, s'⟩
  rw [ho] at h
  cases h
  rfl

theorem ret_cur {α : Type} {f : RMode → Option α} (h : ∀ r, f r ≠ none) : V.Returns (V.P.cur f) fun t => ∃ r, f r = some t := by
  intro s _
  have e : V.P.cur f = evalIn V.ctl f := by
    unfold Env.P libPolicies; cases V.kind <;> rfl
  obtain ⟨t, ht⟩ := Option.ne_none_iff_exists'.1 (h (V.ctl.decode s.cw))
  rw [e]
  exact ⟨t, by change ofOpt (f (V.ctl.decode s.cw)) = _; rw [ht]; rfl, rfl, _, ht⟩

theorem ret_forRange {σ : Type} {f : ℕ → σ → M V.ctl.W σ} (Q : ℕ → σ → Prop) {lo n hi : ℕ} (hn : lo + n = hi) {s : σ}
    (h0 : Q lo s) (h : ∀ k s, lo ≤ k → k < hi → Q k s → V.Returns (f k s) (Q (k + 1))) :
    V.Returns (forRange lo n f s) (Q hi) := by
  induction n generalizing lo s with
  | zero => subst hn; exact Env.Returns.pure h0
  | succ n ih =>
    exact (h lo s le_rfl (by omega) h0).bind fun s hs => ih (by omega) hs fun k s hk => h k s (by omega)

theorem ret_lift {α : Type} {r : Res α} {Q : α → Prop} (h : ∃ z, r = .ok z ∧ Q z) : V.Returns (lift r : M V.ctl.W α) Q := by
  intro s _
  obtain ⟨z, hz, hq⟩ := h
  exact ⟨z, hz, rfl, hq⟩

theorem ret_abs (hT : TotalOps T) (v : T) : V.Returns (lift (stdAbs v) : M V.ctl.W T) fun _ => True := by
  refine ret_lift ?_
  unfold stdAbs
  split_ifs
  · obtain ⟨t, ht⟩ := Option.ne_none_iff_exists'.1 (hT.neg v)
    rw [ht]; exact ⟨t, rfl, trivial⟩
  · exact ⟨v, rfl, trivial⟩

theorem pivot2_ret (hT : TotalOps T) (u : ℕ → ℕ → T) (p : ℕ → ℕ) {i : ℕ} (hi : i < d) :
    V.Returns (pivot2 u p d i) fun s => i ≤ s.2 ∧ s.2 < d := by
  unfold pivot2
  refine (ret_abs hT _).bind fun mx _ => ?_
  refine ret_forRange (hi := d) (fun n (s : T × ℕ) => i ≤ s.2 ∧ s.2 < d) (by omega) ⟨le_rfl, hi⟩ ?_
  intro k s h1 h2 h
  refine (ret_abs hT _).bind fun n _ => Env.Returns.pure ?_
  split_ifs
  · exact ⟨by dsimp only; omega, h2⟩
  · exact h

theorem upd2_row {α : Type} (u : ℕ → ℕ → α) {i k : ℕ} (j : ℕ) (v : α) (h : k ≠ i) : upd2 u i j v k = u k :=
  Function.update_of_ne h _ _

theorem elim2_ret (hT : TotalOps T) (p : ℕ → ℕ) {i : ℕ} (hi : i < d) (hp : ∀ r < d, ∀ s < d, p r = p s → r = s) (u : ℕ → ℕ → T) :
    V.Returns (elim2 V.P p d i u) fun u' => ∀ c ≤ i, u' (p c) = u (p c) := by
  unfold elim2
  refine ret_forRange (hi := d) (fun n (u' : ℕ → ℕ → T) => ∀ c ≤ i, u' (p c) = u (p c)) (by omega) (fun _ _ => rfl) ?_
  intro k u' hk hkd h
  have hne : ∀ c ≤ i, p c ≠ p k := fun c hc e => by
    have := hp c (by omega) k hkd e; omega
  refine (ret_cur fun r => hT.div r _ _).bind fun fact _ => ?_
  refine ret_forRange (hi := d) (fun n (u' : ℕ → ℕ → T) => ∀ c ≤ i, u' (p c) = u (p c)) (by omega)
    (fun c hc => by rw [upd2_row _ _ _ (hne c hc)]; exact h c hc) ?_
  intro j u' _ _ h
  refine (ret_cur fun r => hT.mul r _ _).bind fun q _ => (ret_cur fun r => hT.sub r _ _).bind fun v _ => Env.Returns.pure ?_
  intro c hc
  rw [upd2_row _ _ _ (hne c hc)]; exact h c hc

/-- The sign of a pivot as the program sees it. -/
def pivSign (v : T) : Int := if Num.lt v (Num.lit 0) then -1 else 1

/-- The state of the factorisation before column `i`. -/
def LU2 (d i : ℕ) (u : ℕ → ℕ → T) (p : ℕ → ℕ) (sig : Int) : Prop := ∃ σ : Equiv.Perm (Fin d), (∀ k : Fin d, p k = σ k) ∧
  sig = Equiv.Perm.sign σ * ∏ c ∈ Finset.range i, pivSign (u (p c) c)

theorem LU2.inj {i : ℕ} {u : ℕ → ℕ → T} {p : ℕ → ℕ} {sig : Int} (h : LU2 d i u p sig) :
    ∀ r < d, ∀ s < d, p r = p s → r = s := by
  obtain ⟨σ, hσ, _⟩ := h
  intro r hr s hs e
  have h1 := hσ ⟨r, hr⟩
  have h2 := hσ ⟨s, hs⟩
  dsimp only at h1 h2
  rw [h1, h2] at e
  exact congrArg Fin.val (σ.injective (Fin.ext e))

theorem LU2.swap {i k : ℕ} {u : ℕ → ℕ → T} {p : ℕ → ℕ} {sig : Int} (h : LU2 d i u p sig) (hi : i < d) (hk : k < d) (hik : i < k) :
    LU2 d i u (swapP p i k) (-sig) := by
  obtain ⟨σ, hσ, hs⟩ := h
  refine ⟨σ * Equiv.swap ⟨i, hi⟩ ⟨k, hk⟩, fun l => ?_, ?_⟩
  · rw [swapP_eq, Equiv.Perm.mul_apply, ← hσ]
    congr 1
    simp only [Equiv.swap_apply_def, Fin.ext_iff]
    split_ifs <;> rfl
  · have e : ∏ c ∈ Finset.range i, pivSign (u (swapP p i k c) c) = ∏ c ∈ Finset.range i, pivSign (u (p c) c) := by
      refine Finset.prod_congr rfl fun c hc => ?_
      rw [Finset.mem_range] at hc
      rw [swapP_eq, Equiv.swap_apply_of_ne_of_ne (by omega) (by omega)]
    rw [e, Equiv.Perm.sign_mul, Equiv.Perm.sign_swap (by simpa [Fin.ext_iff] using hik.ne), hs]
    push_cast
    ring

theorem LU2.next {i : ℕ} {u u' : ℕ → ℕ → T} {p : ℕ → ℕ} {sig : Int} (h : LU2 d i u p sig) (hu : ∀ c ≤ i, u' (p c) = u (p c)) :
    LU2 d (i + 1) u' p (if Num.lt (u (p i) i) (Num.lit 0) then -sig else sig) := by
  obtain ⟨σ, hσ, hs⟩ := h
  refine ⟨σ, hσ, ?_⟩
  have e : ∏ c ∈ Finset.range (i + 1), pivSign (u' (p c) c) =
      (∏ c ∈ Finset.range i, pivSign (u (p c) c)) * pivSign (u (p i) i) := by
    rw [Finset.prod_range_succ, hu i le_rfl]
    congr 1
    refine Finset.prod_congr rfl fun c hc => ?_
    rw [Finset.mem_range] at hc
    rw [hu c (by omega)]
  rw [e, hs]
  unfold pivSign
  split_ifs <;> ring

theorem lu2_ret (hT : TotalOps T) {n i : ℕ} (hn : i + n = d) {u : ℕ → ℕ → T} {p : ℕ → ℕ} {sig : Int} (h : LU2 d i u p sig) :
    V.Returns (lu2 V.P d n i u p sig) fun o => ∀ u' p' sig', o = some (u', p', sig') → LU2 d d u' p' sig' := by
  induction n generalizing i u p sig with
  | zero =>
    obtain rfl : i = d := by omega
    refine Env.Returns.pure ?_
    rintro u' p' sig' h
    cases h
    exact h
  | succ n ih =>
    have hi : i < d := by omega
    unfold lu2
    refine (pivot2_ret hT u p hi).bind fun ⟨mx, k⟩ ⟨hk1, hk2⟩ => ?_
    dsimp only at hk1 hk2 ⊢
    split_ifs with h0 h1
    · exact Env.Returns.pure fun _ _ _ h => by cases h
    · have h' := h.swap hi hk2 (by omega)
      refine (elim2_ret hT _ hi h'.inj u).bind fun u' hu => ih (by omega) ?_
      have := h'.next hu
      rwa [if_pos ‹_›] at this
    · have h' := h.swap hi hk2 (by omega)
      refine (elim2_ret hT _ hi h'.inj u).bind fun u' hu => ih (by omega) ?_
      have := h'.next hu
      rwa [if_neg ‹_›] at this
    · refine (elim2_ret hT _ hi h.inj u).bind fun u' hu => ih (by omega) ?_
      have := h.next hu
      rwa [if_pos ‹_›] at this
    · refine (elim2_ret hT _ hi h.inj u).bind fun u' hu => ih (by omega) ?_
      have := h.next hu
      rwa [if_neg ‹_›] at this

theorem dot2_ret (hT : TotalOps T) (line : ℕ → T) (v : ℕ → ℕ → T) (j lo n : ℕ) (s : T) :
    V.Returns (dot2 V.P line v j lo n s) fun _ => True := by
  unfold dot2
  refine ret_forRange (hi := lo + n) (fun _ (_ : T) => True) rfl trivial fun k s _ _ _ => ?_
  exact (ret_cur fun r => hT.mul r _ _).bind fun q _ => (ret_cur fun r => hT.sub r _ _).mono fun _ _ => trivial

theorem upd2_self {α : Type} (u : ℕ → ℕ → α) (i j : ℕ) (v : α) : upd2 u i j v i j = v := by
  unfold upd2; rw [Function.update_self, Function.update_self]

theorem upd2_ne {α : Type} (u : ℕ → ℕ → α) {i j k l : ℕ} (v : α) (h : k ≠ i ∨ l ≠ j) : upd2 u i j v k l = u k l := by
  by_cases e : k = i
  · subst e
    unfold upd2
    rw [Function.update_self, Function.update_of_ne (h.resolve_left fun h => h rfl)]
  · exact congrFun (upd2_row u j v e) l

theorem invCol_ret (hT : TotalOps T) (u : ℕ → ℕ → T) (p : ℕ → ℕ) {j : ℕ} (hj : j < d) (v : ℕ → ℕ → T) :
    V.Returns (invCol V.P u p d j v) fun v' => (∀ k, k ≠ j → v' k k = v k k) ∧
      ∃ r, Num.div r (Num.lit 1) (u (p j) j) = some (v' j j) := by
  unfold invCol
  refine Env.Returns.bind (Q := fun v' => ∀ k, k ≠ j → v' k k = v k k) ?_ fun v1 h1 => ?_
  · refine ret_forRange (hi := d) (fun _ (v' : ℕ → ℕ → T) => ∀ k, k ≠ j → v' k k = v k k) (by omega) (fun _ _ => rfl) ?_
    intro i v' hi1 hi2 h
    refine Env.Returns.bind (Q := fun _ => True) (ret_lift ?_) fun s _ => (dot2_ret hT _ _ _ _ _ _).bind fun s _ => Env.Returns.pure ?_
    · obtain ⟨t, ht⟩ := Option.ne_none_iff_exists'.1 (hT.neg (u (p i) j))
      rw [ht]; exact ⟨t, rfl, trivial⟩
    · intro k hk
      rw [upd2_ne _ _ (.inr hk)]; exact h k hk
  · refine (ret_cur fun r => hT.div r _ _).bind fun e ⟨r, he⟩ => ?_
    refine ret_forRange (hi := j) (fun _ (v' : ℕ → ℕ → T) => (∀ k, k ≠ j → v' k k = v k k) ∧
      ∃ r, Num.div r (Num.lit 1) (u (p j) j) = some (v' j j)) (zero_add j) ⟨fun k hk => ?_, r, ?_⟩ ?_
    · rw [upd2_ne _ _ (.inr hk)]; exact h1 k hk
    · rw [upd2_self]; exact he
    · rintro t v' _ ht ⟨h2, r, h3⟩
      refine (dot2_ret hT _ _ _ _ _ _).bind fun s _ => (ret_cur fun r => hT.div r _ _).bind fun q _ => Env.Returns.pure ⟨fun k hk => ?_, r, ?_⟩
      · rw [upd2_ne _ _ (.inr hk)]; exact h2 k hk
      · rw [upd2_ne _ _ (.inl (by omega))]; exact h3

/-- What the floating-point part is known to compute. -/
theorem approx2_ret (hT : TotalOps T) (a : ℕ → ℕ → T) (junk : ℕ → ℕ → T) :
    V.Returns (approx2 V.P a d junk) fun o => ∀ v p sig, o = some (v, p, sig) → ∃ u : ℕ → ℕ → T, LU2 d d u p sig ∧
      ∀ j < d, ∃ r, Num.div r (Num.lit 1) (u (p j) j) = some (v j j) := by
  unfold approx2
  refine (lu2_ret hT (zero_add d) (u := a) (p := id) (sig := 1) ⟨1, fun _ => rfl, by simp⟩).bind fun o ho => ?_
  rcases o with _ | ⟨u, p, sig⟩
  · exact Env.Returns.pure fun _ _ _ h => by cases h
  · dsimp only
    refine Env.Returns.bind (Q := fun v => ∀ j < d, ∃ r, Num.div r (Num.lit 1) (u (p j) j) = some (v j j)) ?_ fun v hv => ?_
    · refine ret_forRange (hi := d) (fun n (v : ℕ → ℕ → T) => ∀ j < n, ∃ r, Num.div r (Num.lit 1) (u (p j) j) = some (v j j))
        (zero_add d) (fun j hj => by omega) ?_
      intro k v _ hk h
      refine (invCol_ret hT u p hk v).mono fun v' ⟨h1, h2⟩ j hj => ?_
      by_cases e : j = k
      · subst e; exact h2
      · rw [h1 j e]; exact h j (by omega)
    · refine Env.Returns.pure ?_
      rintro v p sig h
      cases h
      exact ⟨u, ho u p sig rfl, hv⟩

theorem sig_correct (hR : RecipSign T) {u v : ℕ → ℕ → T} {p : ℕ → ℕ} {sig : Int} {σ : Equiv.Perm (Fin d)} {L : ℕ → ℕ → ℝ} {D : ℝ}
    (hs : sig = Equiv.Perm.sign σ * ∏ c ∈ Finset.range d, pivSign (u (p c) c))
    (hv : ∀ i < d, ∀ j < d, val (v i j) = some (L i j : EReal))
    (hd : ∀ j < d, ∃ r, Num.div r (Num.lit 1) (u (p j) j) = some (v j j))
    (h : 0 < (Equiv.Perm.sign σ : ℝ) * D * ∏ c ∈ Finset.range d, L c c) :
    (sig = 1 ∧ 0 < D) ∨ (sig = -1 ∧ D < 0) := by
  have hne : ∀ c < d, L c c ≠ 0 := by
    intro c hc e
    rw [Finset.prod_eq_zero (f := fun c => L c c) (Finset.mem_range.2 hc) e, mul_zero] at h
    exact h.false
  have h1 : 0 < ∏ c ∈ Finset.range d, (pivSign (u (p c) c) : ℝ) * L c c := by
    refine Finset.prod_pos fun c hc => ?_
    rw [Finset.mem_range] at hc
    obtain ⟨r, hr⟩ := hd c hc
    have := hR r _ _ _ hr (hv c hc c hc) (hne c hc)
    unfold pivSign
    split_ifs with hl
    · have := this.2 hl
      push_cast; linarith
    · have h2 : ¬ L c c < 0 := fun h => hl (this.1 h)
      have := lt_of_le_of_ne (not_lt.1 h2) (hne c hc).symm
      push_cast; linarith
  have h2 : (∏ c ∈ Finset.range d, pivSign (u (p c) c) : Int) = 1 ∨ (∏ c ∈ Finset.range d, pivSign (u (p c) c) : Int) = -1 := by
    refine Finset.prod_induction _ (fun z : Int => z = 1 ∨ z = -1) ?_ (.inl rfl) ?_
    · rintro a b (rfl | rfl) (rfl | rfl) <;> simp
    · intro c _; unfold pivSign; split_ifs <;> simp
  rw [Finset.prod_mul_distrib] at h1
  have e : ∏ c ∈ Finset.range d, (pivSign (u (p c) c) : ℝ) = ((∏ c ∈ Finset.range d, pivSign (u (p c) c) : Int) : ℝ) := by
    push_cast; rfl
  rw [e] at h1
  generalize (∏ c ∈ Finset.range d, pivSign (u (p c) c) : Int) = S at hs h1 h2
  generalize ∏ c ∈ Finset.range d, L c c = Q at h h1
  rcases Int.units_eq_one_or (Equiv.Perm.sign σ) with e1 | e1 <;> rw [e1] at h hs <;> rcases h2 with rfl | rfl <;>
    push_cast at h h1 hs <;> simp only [one_mul, neg_mul, mul_one, mul_neg, neg_neg] at h h1 hs
  · exact .inl ⟨hs, (pos_iff_pos_of_mul_pos h).2 h1⟩
  · exact .inr ⟨hs, by nlinarith⟩
  · exact .inr ⟨hs, by nlinarith⟩
  · exact .inl ⟨hs, by nlinarith⟩

/-- `det_sign_algo2` is right when the approximate inverses are finite. -/
theorem detSign2_at (hV : V.Directed) (hT : TotalOps T) (hR : RecipSign T) {A : ℕ → ℕ → ℝ} {a : ℕ → ℕ → T}
    (hA : ∀ i < d, ∀ j < d, val (a i j) = some (A i j : EReal)) (junk : ℕ → ℕ → T) (junk1 junk2 : ℕ → Itv T)
    (s : V.State) (hs : V.Valid s)
    (hf : ∀ v p sig, (approx2 V.P a d junk s).1 = .ok (some (v, p, sig)) → ∀ i < d, ∀ j < d, ∃ r : ℝ, val (v i j) = some (r : EReal)) :
    ∃ z, (detSign2 V.P a d junk junk1 junk2 s).1 = .ok z ∧ (detSign2 V.P a d junk junk1 junk2 s).2.cw = s.cw ∧
      ((z = 1 ∧ 0 < (sq d A).det) ∨ (z = -1 ∧ (sq d A).det < 0) ∨ z = 0) := by
  obtain ⟨o, ho, hcw, hQ⟩ := approx2_ret hT a junk s hs
  have hb : detSign2 V.P a d junk junk1 junk2 s = _ := bind_at ho ()
  rw [hb]
  have hs' : V.Valid (approx2 V.P a d junk s).2 := by unfold Env.Valid; rw [hcw]; exact hs
  rw [← hcw]
  rcases o with _ | ⟨v, p, sig⟩
  · exact ⟨0, rfl, rfl, .inr (.inr rfl)⟩
  · have hfin := hf v p sig ho
    choose! L hL using hfin
    obtain ⟨u, ⟨σ, hσ, hsig⟩, hdiv⟩ := hQ v p sig rfl
    have hp : ∀ k < d, p k < d := fun k hk => by
      have := hσ ⟨k, hk⟩
      dsimp only at this
      rw [this]; exact (σ _).2
    have hc : V.Returns (V.P.rnd.scope (check2 V.P.unprot a v p d junk1 junk2 d 0)) fun b => b = true →
        (sig = 1 ∧ 0 < (sq d A).det) ∨ (sig = -1 ∧ (sq d A).det < 0) := by
      refine V.run hV (r := check2 V.pp a v p d junk1 junk2 d 0) (fun _ h => h.scope (check2_sim h.unprot _ _ _ _ _ _ _ _)) ?_
      refine (check2_post hV hp hA hL junk1 junk2 (zero_add d)).mono fun b hb hbt => ?_
      exact sig_correct hR hsig hL hdiv (det_verified hσ fun i hi => hb hbt i hi (Nat.zero_le _))
    have : V.Returns (do
        let ok ← V.P.rnd.scope (check2 V.P.unprot a v p d junk1 junk2 d 0)
        pure (if ok = true then sig else 0)) fun z => (z = 1 ∧ 0 < (sq d A).det) ∨ (z = -1 ∧ (sq d A).det < 0) ∨ z = 0 := by
      refine hc.bind fun b hb => Env.Returns.pure ?_
      cases b
      · exact .inr (.inr rfl)
      · rcases hb rfl with h | h
        · exact .inl h
        · exact .inr (.inl h)
    exact this _ hs'
end

/-! ## Floating-point numbers -/

theorem fl_total {f : Fmt} : TotalOps (Fl f) where
  neg _ := Option.some_ne_none _
  sub _ _ _ := Option.some_ne_none _
  mul _ _ _ := Option.some_ne_none _
  div _ _ _ := Option.some_ne_none _

theorem fl_recipSign {f : Fmt} : RecipSign (Fl f) := by
  intro r p c v hc hv hne
  cases hc
  have h1 : val (Num.lit 1 : Fl f) = some ((1 : ℝ) : EReal) := val_one
  have h0 : val (Num.lit 0 : Fl f) = some 0 := val_zero
  generalize (Num.lit 1 : Fl f) = a at hv h1
  have ha : ∃ q h, a = Fl.nz q h := by
    cases a with
    | nan => cases h1
    | inf s => cases s <;> cases h1
    | zero s => exact absurd (Option.some.inj h1) (by simp)
    | nz q h => exact ⟨q, h, rfl⟩
  obtain ⟨q, hq, rfl⟩ := ha
  cases p with
  | nan => cases hv
  | inf s =>
    have : ((0 : ℝ) : EReal) = v := Option.some.inj hv
    exact absurd (EReal.coe_injective this).symm hne
  | zero s =>
    have h : val (Fl.inf ((Fl.nz q hq).isNeg ^^ s) : Fl f) = some (v : EReal) := hv
    cases hb : ((Fl.nz q hq).isNeg ^^ s) <;> rw [hb] at h <;> cases h
  | nz p hp =>
    have h2 : val (Fl.nz p hp : Fl f) = some ((p : ℝ) : EReal) := rfl
    have hp0 : (p : ℝ) ≠ 0 := by exact_mod_cast hp.1
    obtain ⟨z, hz, hspec⟩ := div_rounds r h1 h2 ⟨by exact_mod_cast hp0, .inl ⟨EReal.coe_ne_bot _, EReal.coe_ne_top _⟩⟩
    rw [hv] at hz
    obtain rfl := Option.some.inj hz
    have r0 : Representable (Fl f) 0 := ⟨_, h0⟩
    have e : (((1 : ℝ) : EReal) / ((p : ℝ) : EReal)) = ((1 / (p : ℝ) : ℝ) : EReal) := (EReal.coe_div _ _).symm
    rw [e] at hspec
    rw [show Num.lt (Fl.nz p hp : Fl f) (Num.lit 0) = decide (((p : ℝ) : EReal) < 0) from lt_eq h2 h0, decide_eq_true_iff]
    have e2 : ((p : ℝ) : EReal) < 0 ↔ (p : ℝ) < 0 := by exact_mod_cast Iff.rfl
    rw [e2]
    constructor
    · intro hv0
      by_contra hcon
      have := hspec.lo 0 r0 (by exact_mod_cast one_div_nonneg.2 (not_lt.1 hcon))
      have : (0 : ℝ) ≤ v := by exact_mod_cast this
      linarith
    · intro hp'
      have := hspec.up 0 r0 (by exact_mod_cast (one_div_neg.2 hp').le)
      have : v ≤ 0 := by exact_mod_cast this
      exact lt_of_le_of_ne this hne
end BI
