import Verif.Proofs.ExFilter2
import Verif.Proofs.Instances
/-! # examples/filter.cpp, `det_sign_algo2` with rational numbers -/

set_option linter.unusedSectionVars false

namespace BI
open Set

/-! ## Triangular factors -/

/-- A sum over the indices below `d` of terms that vanish outside an interval. -/
theorem sum_range_Ico {d lo hi : ℕ} {f : ℕ → ℝ} (hd : hi ≤ d) (h : ∀ k < d, ¬ (lo ≤ k ∧ k < hi) → f k = 0) :
    ∑ k ∈ Finset.range d, f k = ∑ k ∈ Finset.Ico lo hi, f k := by
  symm
  refine Finset.sum_subset (fun k hk => ?_) fun k hk hk' => h k (Finset.mem_range.1 hk) fun hc => hk' (Finset.mem_Ico.2 hc)
  have := (Finset.mem_Ico.1 hk).2
  exact Finset.mem_range.2 (by omega)

/-- The upper factor times the matrix that back substitution computes. -/
theorem upPart_inv {d : ℕ} {M v : ℕ → ℕ → ℝ} (h0 : ∀ c < d, M c c ≠ 0) (h1 : ∀ j < d, v j j = 1 / M j j)
    (h2 : ∀ j < d, ∀ i < j, v i j = (0 - ∑ k ∈ Finset.Ico (i + 1) (j + 1), M i k * v k j) / M i i) :
    sq d (upPart M) * sq d (upPart v) = 1 := by
  ext ⟨i, hi⟩ ⟨j, hj⟩
  rw [Matrix.mul_apply]
  change ∑ k : Fin d, upPart M i k * upPart v k j = _
  rw [← sum_range_fin fun k => upPart M i k * upPart v k j, sum_range_Ico (lo := i) (hi := j + 1) (by omega)]
  · have e : ∀ k ∈ Finset.Ico i (j + 1), upPart M i k * upPart v k j = M i k * v k j := by
      intro k hk
      rw [Finset.mem_Ico] at hk
      rw [upPart, upPart, if_pos hk.1, if_pos (by omega)]
    rw [Finset.sum_congr rfl e]
    rcases lt_trichotomy i j with h | h | h
    · rw [Matrix.one_apply_ne (by simp [Fin.ext_iff]; omega), Finset.sum_eq_sum_Ico_succ_bot (by omega), h2 j hj i h,
        mul_div_cancel₀ _ (h0 i hi)]
      ring
    · subst h
      rw [Matrix.one_apply_eq, Nat.Ico_succ_singleton, Finset.sum_singleton, h1 i hi, mul_one_div_cancel (h0 i hi)]
    · rw [Matrix.one_apply_ne (by simp [Fin.ext_iff]; omega), Finset.Ico_eq_empty (by omega), Finset.sum_empty]
  · intro k _ hk
    unfold upPart
    by_cases h : i ≤ k
    · rw [if_neg (show ¬ k ≤ j by omega), mul_zero]
    · rw [if_neg h, zero_mul]

/-- The lower factor times the matrix that forward substitution computes. -/
theorem lowPart_inv {d : ℕ} {M v : ℕ → ℕ → ℝ}
    (h : ∀ j < d, ∀ i < d, j < i → v i j = -M i j - ∑ k ∈ Finset.Ico (j + 1) i, M i k * v k j) :
    sq d (lowPart M) * sq d (lowPart v) = 1 := by
  ext ⟨i, hi⟩ ⟨j, hj⟩
  rw [Matrix.mul_apply]
  change ∑ k : Fin d, lowPart M i k * lowPart v k j = _
  rw [← sum_range_fin fun k => lowPart M i k * lowPart v k j, sum_range_Ico (lo := j) (hi := i + 1) (by omega)]
  · rcases lt_trichotomy j i with hl | hl | hl
    · rw [Matrix.one_apply_ne (by simp [Fin.ext_iff]; omega), Finset.sum_eq_sum_Ico_succ_bot (by omega),
        Finset.sum_Ico_succ_top (by omega)]
      have e : ∀ k ∈ Finset.Ico (j + 1) i, lowPart M i k * lowPart v k j = M i k * v k j := by
        intro k hk
        rw [Finset.mem_Ico] at hk
        rw [lowPart, lowPart, if_pos hk.2, if_pos (by omega)]
      rw [Finset.sum_congr rfl e]
      have e1 : lowPart M i j = M i j := if_pos hl
      have e2 : lowPart v j j = 1 := by simp [lowPart]
      have e3 : lowPart M i i = 1 := by simp [lowPart]
      have e4 : lowPart v i j = v i j := if_pos hl
      rw [e1, e2, e3, e4, h j hj i hi hl]
      ring
    · subst hl
      rw [Matrix.one_apply_eq, Nat.Ico_succ_singleton, Finset.sum_singleton]
      simp [lowPart]
    · rw [Matrix.one_apply_ne (by simp [Fin.ext_iff]; omega), Finset.Ico_eq_empty (by omega), Finset.sum_empty]
  · intro k _ hk
    unfold lowPart
    by_cases h : k ≤ i
    · rw [if_neg (show ¬ j < k by omega), if_neg (show ¬ k = j by omega), mul_zero]
    · rw [if_neg (show ¬ k < i by omega), if_neg (show ¬ i = k by omega), zero_mul]

/-! ## The invariant of the factorisation -/

/-- Before column `i` the rows of `A` in the order `p` are the product of the factors found so far, plus the part of the
matrix that is still to be eliminated. -/
def LUE (A : ℕ → ℕ → ℝ) (d i : ℕ) (u : ℕ → ℕ → ℚ) (p : ℕ → ℕ) : Prop := (∀ c < i, u (p c) c ≠ 0) ∧
  ∀ r < d, ∀ c < d, A (p r) c = (∑ l ∈ Finset.range i, lowPart (fun r c => (u (p r) c : ℝ)) r l *
    upPart (fun r c => (u (p r) c : ℝ)) l c) + if i ≤ r ∧ i ≤ c then (u (p r) c : ℝ) else 0

variable {A : ℕ → ℕ → ℝ} {d i k : ℕ} {u u' : ℕ → ℕ → ℚ} {p : ℕ → ℕ}

theorem LUE.start (h : ∀ r < d, ∀ c < d, (u r c : ℝ) = A r c) : LUE A d 0 u id :=
  ⟨fun c hc => by omega, fun r hr c hc => by simp [h r hr c hc]⟩

theorem LUE.swap (h : LUE A d i u p) (hi : i < d) (hk : k < d) (hik : i ≤ k) : LUE A d i u (swapP p i k) := by
  have hlt : ∀ l < i, Equiv.swap i k l = l := fun l hl => Equiv.swap_apply_of_ne_of_ne (by omega) (by omega)
  have hge : ∀ r, i ≤ r → i ≤ Equiv.swap i k r := fun r hr => by
    rw [Equiv.swap_apply_def]; split_ifs <;> omega
  have hd : ∀ r < d, Equiv.swap i k r < d := fun r hr => by
    rw [Equiv.swap_apply_def]; split_ifs <;> omega
  refine ⟨fun c hc => ?_, fun r hr c hc => ?_⟩
  · rw [swapP_eq, hlt c hc]; exact h.1 c hc
  · rw [swapP_eq, h.2 _ (hd r hr) c hc]
    congr 1
    · refine Finset.sum_congr rfl fun l hl => ?_
      rw [Finset.mem_range] at hl
      congr 1
      · unfold lowPart
        by_cases hri : r < i
        · rw [hlt r hri]
          simp only [swapP_eq, hlt r hri]
        · rw [if_pos (show l < Equiv.swap i k r from lt_of_lt_of_le hl (hge r (by omega))), if_pos (show l < r by omega)]
          simp only [swapP_eq]
      · unfold upPart
        simp only [swapP_eq, hlt l hl]
    · by_cases hri : i ≤ r
      · have := hge r hri
        simp only [this, hri, true_and]
      · rw [hlt r (by omega)]

/-- What the elimination of column `i` does to row `k`. -/
def ElimRow (d i : ℕ) (p : ℕ → ℕ) (u u' : ℕ → ℕ → ℚ) (k : ℕ) : Prop := u' (p k) i = u (p k) i / u (p i) i ∧
  (∀ c < d, i < c → u' (p k) c = u (p k) c - u (p i) c * (u (p k) i / u (p i) i)) ∧ ∀ c < i, u' (p k) c = u (p k) c

/-- What the elimination of column `i` does. -/
def Elim (d i : ℕ) (p : ℕ → ℕ) (u u' : ℕ → ℕ → ℚ) : Prop := (∀ c ≤ i, u' (p c) = u (p c)) ∧
  ∀ k < d, i < k → ElimRow d i p u u' k

theorem LUE.next (h : LUE A d i u p) (hi : i < d) (h0 : u (p i) i ≠ 0) (he : Elim d i p u u') : LUE A d (i + 1) u' p := by
  refine ⟨fun c hc => ?_, fun r hr c hc => ?_⟩
  · rw [he.1 c (by omega)]
    by_cases e : c = i
    · subst e; exact h0
    · exact h.1 c (by omega)
  · rw [h.2 r hr c hc, Finset.sum_range_succ, add_assoc]
    congr 1
    · refine Finset.sum_congr rfl fun l hl => ?_
      rw [Finset.mem_range] at hl
      congr 1
      · unfold lowPart
        by_cases hlr : l < r
        · rw [if_pos hlr, if_pos hlr]
          dsimp only
          by_cases hri : r ≤ i
          · rw [he.1 r hri]
          · rw [(he.2 r hr (by omega)).2.2 l hl]
        · rw [if_neg hlr, if_neg hlr]
      · unfold upPart
        dsimp only
        rw [he.1 l (by omega)]
    · have hu : upPart (fun r c => (u' (p r) c : ℝ)) i c = if i ≤ c then (u (p i) c : ℝ) else 0 := by
        unfold upPart; dsimp only; rw [he.1 i le_rfl]
      rw [hu]
      rcases lt_trichotomy r i with hri | hri | hri
      · have : lowPart (fun r c => (u' (p r) c : ℝ)) r i = 0 := by
          unfold lowPart; rw [if_neg (by omega), if_neg (by omega)]
        rw [this, if_neg (show ¬ (i ≤ r ∧ i ≤ c) by omega), if_neg (show ¬ (i + 1 ≤ r ∧ i + 1 ≤ c) by omega)]; ring
      · subst hri
        have : lowPart (fun r c => (u' (p r) c : ℝ)) r r = 1 := by simp [lowPart]
        rw [this, if_neg (show ¬ (r + 1 ≤ r ∧ r + 1 ≤ c) by omega)]
        simp
      · obtain ⟨e1, e2, _⟩ := he.2 r hr hri
        have : lowPart (fun r c => (u' (p r) c : ℝ)) r i = ((u (p r) i / u (p i) i : ℚ) : ℝ) := by
          unfold lowPart; dsimp only; rw [if_pos hri, e1]
        rw [this]
        rcases lt_trichotomy c i with hci | hci | hci
        · rw [if_neg (by omega), if_neg (by omega), if_neg (by omega)]; ring
        · subst hci
          rw [if_pos (by omega), if_pos le_rfl, if_neg (by omega), add_zero, ← Rat.cast_mul, div_mul_cancel₀ _ h0]
        · rw [if_pos (by omega), if_pos (by omega), if_pos (by omega), e2 c hc hci]
          push_cast
          ring

/-- No pivot in column `i`: the determinant is zero. -/
theorem LUE.singular {σ : Equiv.Perm (Fin d)} (h : LUE A d i u p) (hp : ∀ k : Fin d, p k = σ k) (hi : i < d)
    (h0 : ∀ k < d, i ≤ k → u (p k) i = 0) : (sq d A).det = 0 := by
  let M : ℕ → ℕ → ℝ := fun r c => (u (p r) c : ℝ)
  let Lw : ℕ → ℕ → ℝ := fun r l => if l < i then lowPart M r l else if r = l then 1 else 0
  let B : ℕ → ℕ → ℝ := fun r c => if r < i then upPart M r c else if i ≤ c then M r c else 0
  have e : (sq d A).submatrix σ id = sq d Lw * sq d B := by
    ext ⟨r, hr⟩ ⟨c, hc⟩
    rw [Matrix.mul_apply]
    change A (σ ⟨r, hr⟩) c = ∑ l : Fin d, Lw r l * B l c
    rw [← hp, ← sum_range_fin fun l => Lw r l * B l c, h.2 r hr c hc, Finset.range_eq_Ico, Finset.range_eq_Ico,
      ← Finset.sum_Ico_consecutive (fun l => Lw r l * B l c) (Nat.zero_le i) hi.le]
    congr 1
    · refine Finset.sum_congr rfl fun l hl => ?_
      rw [Finset.mem_Ico] at hl
      change _ = (if l < i then lowPart M r l else _) * (if l < i then upPart M l c else _)
      rw [if_pos hl.2, if_pos hl.2]
    · have e1 : ∀ l ∈ Finset.Ico i d, Lw r l * B l c = if r = l then (if i ≤ c then M r c else 0) else 0 := by
        intro l hl
        rw [Finset.mem_Ico] at hl
        change (if l < i then lowPart M r l else _) * (if l < i then upPart M l c else _) = _
        rw [if_neg (show ¬ l < i by omega), if_neg (show ¬ l < i by omega)]
        by_cases hrl : r = l
        · subst hrl; simp
        · rw [if_neg hrl, if_neg hrl, zero_mul]
      rw [Finset.sum_congr rfl e1, Finset.sum_ite_eq]
      by_cases hri : i ≤ r
      · rw [if_pos (Finset.mem_Ico.2 ⟨hri, hr⟩)]; simp [hri, M]
      · rw [if_neg (by omega), if_neg fun hm => hri (Finset.mem_Ico.1 hm).1]
  have hB : (sq d B).det = 0 := by
    refine det_no_pivot hi B (fun c hc r hr hcr => ?_) fun r hr hir => ?_
    · change (if r < i then upPart M r c else if i ≤ c then M r c else 0) = 0
      split_ifs
      · unfold upPart; rw [if_neg (by omega)]
      · omega
      · rfl
    · change (if r < i then upPart M r i else if i ≤ i then M r i else 0) = 0
      rw [if_neg (by omega), if_pos le_rfl]
      change ((u (p r) i : ℚ) : ℝ) = 0
      rw [h0 r hr hir]; simp
  have h1 := congrArg Matrix.det e
  rw [Matrix.det_mul, hB, mul_zero, Matrix.det_permute] at h1
  rcases Int.units_eq_one_or (Equiv.Perm.sign σ) with e1 | e1 <;> rw [e1] at h1 <;> simpa using h1

/-- What the inversion of the factors computes. -/
structure Inv2 (d : ℕ) (u : ℕ → ℕ → ℚ) (p : ℕ → ℕ) (v : ℕ → ℕ → ℚ) (j : ℕ) : Prop where
  low : ∀ i < d, j < i → v i j = -u (p i) j - ∑ k ∈ Finset.Ico (j + 1) i, u (p i) k * v k j
  diag : v j j = 1 / u (p j) j
  up : ∀ i < j, v i j = (0 - ∑ k ∈ Finset.Ico (i + 1) (j + 1), u (p i) k * v k j) / u (p i) i

/-- After exact factorisation and inversion the product is the identity. -/
theorem LUE.inverse {σ : Equiv.Perm (Fin d)} {v : ℕ → ℕ → ℚ} (h : LUE A d d u p) (hp : ∀ k : Fin d, p k = σ k)
    (hv : ∀ j < d, Inv2 d u p v j) {r k : ℕ} (hr : r < d) (hk : k < d) :
    ∑ j ∈ Finset.range d, (∑ l ∈ Finset.range d, A (p r) l * upPart (fun i j => (v i j : ℝ)) l j) *
      lowPart (fun i j => (v i j : ℝ)) j k = if r = k then 1 else 0 := by
  have e : (sq d fun r => A (p r)) = sq d (lowPart fun r c => (u (p r) c : ℝ)) * sq d (upPart fun r c => (u (p r) c : ℝ)) := by
    ext ⟨r, hr⟩ ⟨c, hc⟩
    rw [Matrix.mul_apply]
    change A (p r) c = ∑ l : Fin d, lowPart (fun r c => (u (p r) c : ℝ)) r l * upPart (fun r c => (u (p r) c : ℝ)) l c
    rw [← sum_range_fin fun l => lowPart (fun r c => (u (p r) c : ℝ)) r l * upPart (fun r c => (u (p r) c : ℝ)) l c,
      h.2 r hr c hc, if_neg (by omega), add_zero]
  have hU := upPart_inv (d := d) (M := fun r c => (u (p r) c : ℝ)) (v := fun i j => (v i j : ℝ))
    (fun c hc => by exact_mod_cast h.1 c hc) (fun j hj => by rw [(hv j hj).diag]; push_cast; rfl)
    (fun j hj i hi => by rw [(hv j hj).up i hi]; push_cast; rfl)
  have hL := lowPart_inv (d := d) (M := fun r c => (u (p r) c : ℝ)) (v := fun i j => (v i j : ℝ))
    (fun j hj i hi hji => by rw [(hv j hj).low i hi hji]; push_cast; rfl)
  have h1 : (sq d fun r => A (p r)) * sq d (upPart fun i j => (v i j : ℝ)) * sq d (lowPart fun i j => (v i j : ℝ)) = 1 := by
    rw [e, Matrix.mul_assoc (sq d (lowPart _)), hU, Matrix.mul_one, hL]
  have h2 := congrFun (congrFun h1 ⟨r, hr⟩) ⟨k, hk⟩
  rw [Matrix.mul_apply, Matrix.one_apply] at h2
  rw [sum_range_fin]
  simp only [Fin.mk.injEq] at h2
  rw [← h2]
  refine Finset.sum_congr rfl fun j _ => ?_
  rw [Matrix.mul_apply, sum_range_fin]
  rfl

/-! ## The program -/

variable {V : Env ℚ}

theorem retq_cur {f : RMode → Option ℚ} {z : ℚ} (h : ∀ r, f r = some z) : V.Returns (V.P.cur f) (· = z) :=
  (ret_cur fun r => by rw [h]; simp).mono fun t ⟨r, hr⟩ => by rw [h] at hr; exact (Option.some.inj hr).symm

theorem retq_div {a b : ℚ} (h : b ≠ 0) : V.Returns (V.P.cur fun r => Num.div r a b) (· = a / b) :=
  retq_cur fun _ => if_neg h

theorem retq_abs (v : ℚ) : V.Returns (lift (stdAbs v) : M V.ctl.W ℚ) (· = |v|) := by
  refine ret_lift ?_
  have h0 : (Num.lit 0 : ℚ) = 0 := by change ((0 : ℤ) : ℚ) = 0; simp
  unfold stdAbs
  rw [h0]
  change ∃ z, (if decide (v < 0) = true then (ofOpt (some (-v)) : Res ℚ) else pure v) = .ok z ∧ z = |v|
  by_cases h : v < 0
  · rw [if_pos (by simpa using h)]
    exact ⟨_, rfl, (abs_of_neg h).symm⟩
  · rw [if_neg (by simpa using h)]
    exact ⟨_, rfl, (abs_of_nonneg (not_lt.1 h)).symm⟩

theorem pivot2_exact (u : ℕ → ℕ → ℚ) (p : ℕ → ℕ) (hi : i < d) :
    V.Returns (pivot2 u p d i) fun s => (i ≤ s.2 ∧ s.2 < d) ∧ s.1 = |u (p s.2) i| ∧ ∀ k < d, i ≤ k → |u (p k) i| ≤ s.1 := by
  unfold pivot2
  refine (retq_abs _).bind fun mx hmx => ?_
  subst hmx
  refine ret_forRange (hi := d) (fun n (s : ℚ × ℕ) => (i ≤ s.2 ∧ s.2 < d) ∧ s.1 = |u (p s.2) i| ∧
    ∀ k < n, i ≤ k → |u (p k) i| ≤ s.1) (by omega) ⟨⟨le_rfl, hi⟩, rfl, fun k h1 h2 => ?_⟩ ?_
  · obtain rfl : k = i := by omega
    exact le_rfl
  · rintro k ⟨t, q⟩ h1 h2 ⟨h3, h4, h5⟩
    refine (retq_abs _).bind fun n hn => Env.Returns.pure ?_
    subst hn
    dsimp only at h3 h4 h5 ⊢
    have hlt : Num.lt t |u (p k) i| = decide (t < |u (p k) i|) := rfl
    rw [hlt]
    by_cases h : t < |u (p k) i|
    · rw [if_pos (by simpa using h)]
      refine ⟨⟨by dsimp only; omega, h2⟩, rfl, fun l hl hil => ?_⟩
      by_cases e : l = k
      · rw [e]
      · exact (h5 l (by omega) hil).trans h.le
    · rw [if_neg (by simpa using h)]
      refine ⟨h3, h4, fun l hl hil => ?_⟩
      by_cases e : l = k
      · rw [e]; exact not_lt.1 h
      · exact h5 l (by omega) hil

theorem elim2_exact (hi : i < d) (hp : ∀ r < d, ∀ s < d, p r = p s → r = s) (u : ℕ → ℕ → ℚ) (h0 : u (p i) i ≠ 0) :
    V.Returns (elim2 V.P p d i u) (Elim d i p u) := by
  unfold elim2
  refine (ret_forRange (hi := d) (fun n (u' : ℕ → ℕ → ℚ) => (∀ c ≤ i, u' (p c) = u (p c)) ∧
    (∀ k < n, i < k → ElimRow d i p u u' k) ∧ ∀ k < d, n ≤ k → u' (p k) = u (p k)) (by omega)
    ⟨fun _ _ => rfl, fun k h1 h2 => by omega, fun _ _ _ => rfl⟩ ?_).mono fun _ h => ⟨h.1, h.2.1⟩
  rintro k w hk hkd ⟨h1, h2, h3⟩
  have hne : ∀ c < d, c ≠ k → p c ≠ p k := fun c hc hck e => hck (hp c hc k hkd e)
  have hik : i ≠ k := by omega
  have wi : w (p i) = u (p i) := h1 i le_rfl
  have wk : w (p k) = u (p k) := h3 k hkd le_rfl
  refine (retq_div (by rw [wi]; exact h0)).bind fun fact hf => ?_
  rw [wi, wk] at hf
  refine (ret_forRange (hi := d) (fun n (w' : ℕ → ℕ → ℚ) => (∀ r, r ≠ p k → w' r = w r) ∧ w' (p k) i = fact ∧
    (∀ c < n, i < c → w' (p k) c = u (p k) c - u (p i) c * fact) ∧ (∀ c < d, n ≤ c → w' (p k) c = u (p k) c) ∧
    ∀ c < i, w' (p k) c = u (p k) c) (by omega) ⟨fun r hr => upd2_row _ _ _ hr, upd2_self _ _ _ _, fun c _ _ => by omega,
      fun c _ _ => ?_, fun c _ => ?_⟩ ?_).mono ?_
  · rw [upd2_ne _ _ (.inr (by omega)), wk]
  · rw [upd2_ne _ _ (.inr (by omega)), wk]
  · rintro j w' hj hjd ⟨g1, g2, g3, g4, g5⟩
    have wi' : w' (p i) = u (p i) := by rw [g1 _ (hne i hi hik), wi]
    refine (retq_cur fun _ => rfl).bind fun q hq => (retq_cur fun _ => rfl).bind fun v hv => Env.Returns.pure ?_
    refine ⟨fun r hr => by rw [upd2_row _ _ _ hr, g1 r hr], by rw [upd2_ne _ _ (.inr (by omega)), g2], fun c hc hic => ?_,
      fun c hc hjc => by rw [upd2_ne _ _ (.inr (by omega)), g4 c hc (by omega)],
      fun c hc => by rw [upd2_ne _ _ (.inr (by omega)), g5 c hc]⟩
    by_cases e : c = j
    · subst e
      rw [upd2_self, hv, hq, wi', g4 c hjd le_rfl]
    · rw [upd2_ne _ _ (.inr e), g3 c (by omega) hic]
  · rintro w' ⟨g1, g2, g3, g4, g5⟩
    refine ⟨fun c hc => by rw [g1 _ (hne c (by omega) (by omega)), h1 c hc], fun l hl hil => ?_,
      fun l hl hkl => by rw [g1 _ (hne l hl (by omega)), h3 l hl (by omega)]⟩
    by_cases e : l = k
    · subst e
      rw [hf] at g2 g3
      exact ⟨g2, g3, g5⟩
    · unfold ElimRow
      rw [g1 _ (hne l (by omega) e)]
      exact h2 l (by omega) hil

theorem lu2_exact {n : ℕ} (hn : i + n = d) {sig : Int} (h : LU2 d i u p sig) (hE : LUE A d i u p) :
    V.Returns (lu2 V.P d n i u p sig) fun o => (o = none → (sq d A).det = 0) ∧
      ∀ u' p' sig', o = some (u', p', sig') → LU2 d d u' p' sig' ∧ LUE A d d u' p' := by
  induction n generalizing i u p sig with
  | zero =>
    obtain rfl : i = d := by omega
    refine Env.Returns.pure ⟨fun h => (by cases h), ?_⟩
    rintro u' p' sig' h
    cases h
    exact ⟨h, hE⟩
  | succ n ih =>
    have hi : i < d := by omega
    unfold lu2
    refine (pivot2_exact u p hi).bind fun ⟨mx, k⟩ ⟨⟨hk1, hk2⟩, hk3, hk4⟩ => ?_
    dsimp only at hk1 hk2 hk3 hk4 ⊢
    have h0 : (Num.lit 0 : ℚ) = 0 := by change ((0 : ℤ) : ℚ) = 0; simp
    by_cases hm : mx = 0
    · rw [if_pos (by rw [h0]; exact decide_eq_true hm)]
      refine Env.Returns.pure ⟨fun _ => ?_, fun _ _ _ h => by cases h⟩
      obtain ⟨σ, hσ, _⟩ := h
      refine hE.singular hσ hi fun l hl hil => ?_
      have := hk4 l hl hil
      rw [hm] at this
      exact abs_nonpos_iff.1 this
    · rw [if_neg (by rw [h0]; change ¬ decide (mx = 0) = true; simpa using hm)]
      have hpiv : u (p k) i ≠ 0 := fun e => hm (by rw [hk3, e, abs_zero])
      by_cases hki : k = i
      · rw [if_neg (not_not.2 hki), if_neg (not_not.2 hki)]
        subst hki
        refine (elim2_exact hi h.inj u hpiv).bind fun u' hu => ih (by omega) (h.next hu.1) (hE.next hi hpiv hu)
      · rw [if_pos hki, if_pos hki]
        have h' := h.swap hi hk2 (by omega)
        have hE' := hE.swap hi hk2 hk1
        have hpiv' : u (swapP p i k i) i ≠ 0 := by rw [swapP_eq, Equiv.swap_apply_left]; exact hpiv
        exact (elim2_exact hi h'.inj u hpiv').bind fun u' hu => ih (by omega) (h'.next hu.1) (hE'.next hi hpiv' hu)

theorem dot2_exact (line : ℕ → ℚ) (v : ℕ → ℕ → ℚ) (j lo n : ℕ) (s : ℚ) :
    V.Returns (dot2 V.P line v j lo n s) (· = s - ∑ k ∈ Finset.Ico lo (lo + n), line k * v k j) := by
  unfold dot2
  refine ret_forRange (hi := lo + n) (fun m (t : ℚ) => t = s - ∑ k ∈ Finset.Ico lo m, line k * v k j) rfl (by simp) ?_
  intro k t h1 h2 h
  refine (retq_cur fun _ => rfl).bind fun q hq => (retq_cur fun _ => rfl).mono fun t' ht' => ?_
  rw [ht', h, hq, Finset.sum_Ico_succ_top h1]
  ring

theorem invCol_exact {j : ℕ} (hj : j < d) (h0 : ∀ c < d, u (p c) c ≠ 0) (v : ℕ → ℕ → ℚ) :
    V.Returns (invCol V.P u p d j v) fun v' => (∀ i k, k ≠ j → v' i k = v i k) ∧ Inv2 d u p v' j := by
  unfold invCol
  refine Env.Returns.bind (Q := fun v' => (∀ i k, k ≠ j → v' i k = v i k) ∧
    ∀ i < d, j < i → v' i j = -u (p i) j - ∑ k ∈ Finset.Ico (j + 1) i, u (p i) k * v' k j) ?_ fun v1 ⟨h1, h2⟩ => ?_
  · refine ret_forRange (hi := d) (fun n (v' : ℕ → ℕ → ℚ) => (∀ i k, k ≠ j → v' i k = v i k) ∧
      ∀ i < n, j < i → v' i j = -u (p i) j - ∑ k ∈ Finset.Ico (j + 1) i, u (p i) k * v' k j) (by omega)
      ⟨fun _ _ _ => rfl, fun i h1 h2 => by omega⟩ ?_
    rintro i w hi hid ⟨g1, g2⟩
    refine Env.Returns.bind (Q := fun s => s = -u (p i) j) (ret_lift ⟨_, rfl, rfl⟩) fun s hs => ?_
    refine (dot2_exact _ _ _ _ _ _).bind fun t ht => Env.Returns.pure ?_
    rw [show j + 1 + (i - (j + 1)) = i by omega, hs] at ht
    refine ⟨fun l k hk => by rw [upd2_ne _ _ (.inr hk), g1 l k hk], fun l hl hjl => ?_⟩
    have e1 : ∀ k ∈ Finset.Ico (j + 1) l, u (p l) k * upd2 w i j t k j = u (p l) k * w k j := by
      intro k hk
      rw [Finset.mem_Ico] at hk
      rw [upd2_ne _ _ (.inl (by omega))]
    rw [Finset.sum_congr rfl e1]
    by_cases e : l = i
    · subst e; rw [upd2_self, ht]
    · rw [upd2_ne _ _ (.inl e), g2 l (by omega) hjl]
  · refine (retq_div (h0 j hj)).bind fun t ht => ?_
    have hl1 : (Num.lit 1 : ℚ) = 1 := by change ((1 : ℤ) : ℚ) = 1; simp
    have hl0 : (Num.lit 0 : ℚ) = 0 := by change ((0 : ℤ) : ℚ) = 0; simp
    rw [hl1] at ht
    refine (ret_forRange (hi := j) (fun n (w : ℕ → ℕ → ℚ) => (∀ i k, k ≠ j → w i k = v i k) ∧
      (∀ i, j < i → w i j = v1 i j) ∧ w j j = 1 / u (p j) j ∧
      ∀ i < j, j ≤ i + n → w i j = (0 - ∑ k ∈ Finset.Ico (i + 1) (j + 1), u (p i) k * w k j) / u (p i) i) (zero_add j)
      ⟨fun i k hk => by rw [upd2_ne _ _ (.inr hk), h1 i k hk], fun i hi => upd2_ne _ _ (.inl (by omega)),
        by rw [upd2_self, ht], fun i h1 h2 => by omega⟩ ?_).mono ?_
    · rintro n w _ hn ⟨g1, g2, g3, g4⟩
      have hlt : j - 1 - n < j := by omega
      refine (dot2_exact _ _ _ _ _ _).bind fun s hs => (retq_div (h0 _ (by omega))).bind fun q hq => Env.Returns.pure ?_
      rw [show j - 1 - n + 1 + (j - (j - 1 - n)) = j + 1 by omega, hl0] at hs
      rw [hs] at hq
      refine ⟨fun i k hk => by rw [upd2_ne _ _ (.inr hk), g1 i k hk],
        fun i hi => by rw [upd2_ne _ _ (.inl (by omega)), g2 i hi], by rw [upd2_ne _ _ (.inl (by omega)), g3], fun i hij hjn => ?_⟩
      have e1 : ∀ k ∈ Finset.Ico (i + 1) (j + 1), u (p i) k * upd2 w (j - 1 - n) j q k j = u (p i) k * w k j := by
        intro k hk
        rw [Finset.mem_Ico] at hk
        rw [upd2_ne _ _ (.inl (by omega))]
      rw [Finset.sum_congr rfl e1]
      by_cases e : i = j - 1 - n
      · rw [e, upd2_self, hq]
      · rw [upd2_ne _ _ (.inl e), g4 i hij (by omega)]
    · rintro w ⟨g1, g2, g3, g4⟩
      refine ⟨g1, fun i hi hji => ?_, g3, fun i hi => g4 i hi (by omega)⟩
      rw [g2 i hji, h2 i hi hji]
      congr 1
      refine Finset.sum_congr rfl fun k hk => ?_
      rw [Finset.mem_Ico] at hk
      rw [g2 k (by omega)]

theorem Inv2.congr {v v' : ℕ → ℕ → ℚ} {j : ℕ} (h : Inv2 d u p v j) (e : ∀ i, v' i j = v i j) : Inv2 d u p v' j :=
  ⟨fun i h1 h2 => by simp only [e]; exact h.low i h1 h2, by rw [e]; exact h.diag,
    fun i hi => by simp only [e]; exact h.up i hi⟩

theorem approx2_exact {a : ℕ → ℕ → ℚ} (ha : ∀ r < d, ∀ c < d, (a r c : ℝ) = A r c) (junk : ℕ → ℕ → ℚ) :
    V.Returns (approx2 V.P a d junk) fun o => (o = none → (sq d A).det = 0) ∧
      ∀ v p sig, o = some (v, p, sig) → ∃ u : ℕ → ℕ → ℚ, LU2 d d u p sig ∧ LUE A d d u p ∧ ∀ j < d, Inv2 d u p v j := by
  unfold approx2
  refine (lu2_exact (zero_add d) (u := a) (p := id) (sig := 1) ⟨1, fun _ => rfl, by simp⟩ (.start ha)).bind fun o ⟨h1, ho⟩ => ?_
  rcases o with _ | ⟨u, p, sig⟩
  · exact Env.Returns.pure ⟨h1, fun _ _ _ h => by cases h⟩
  · dsimp only
    obtain ⟨hL, hE⟩ := ho u p sig rfl
    refine Env.Returns.bind (Q := fun v => ∀ j < d, Inv2 d u p v j) ?_ fun v hv => ?_
    · refine ret_forRange (hi := d) (fun n (v : ℕ → ℕ → ℚ) => ∀ j < n, Inv2 d u p v j) (zero_add d) (fun j hj => by omega) ?_
      intro k v _ hk h
      refine (invCol_exact hk hE.1 v).mono fun v' ⟨g1, g2⟩ j hj => ?_
      by_cases e : j = k
      · subst e; exact g2
      · exact (h j (by omega)).congr fun i => g1 i j e
    · refine Env.Returns.pure ⟨fun h => (by cases h), ?_⟩
      rintro v' p' sig' h
      cases h
      exact ⟨u, hL, hE, hv⟩

/-! ## The verification -/

section
variable {T : Type} [Num T] [Val T] [NumLaws T] {V : Env T} {A : ℕ → ℝ}

theorem rowNorm_exact (hV : V.Ok Eq Eq) {m : ℕ → Itv T} (hm : ∀ k < d, Rp True (A k) (m k)) :
    Post True (rowNorm V.pp d m) fun ss => val ss = some ((∑ k ∈ Finset.range d, |A k| : ℝ) : EReal) := by
  have hA := hV.dir du_eq
  refine forRange_post (fun n (ss : T) => val ss = some ((∑ k ∈ Finset.range n, |A k| : ℝ) : EReal)) (zero_add _)
    (by simpa using val_zero) ?_
  intro n ss _ hn he
  obtain ⟨a, b, ix⟩ := (hm n hn).has
  obtain ⟨w, hw, vw⟩ := norm_has (Env.Ok.neg hV) V.chk ix
  have hab : max (-a) b = ((|A n| : ℝ) : EReal) := by
    have ab : a = b := ix.single_iff.1 ⟨_, (hm n hn).2 trivial⟩
    have h1 := ix.lb (hm n hn).1
    have h2 := ix.ub (hm n hn).1
    subst ab
    obtain rfl := le_antisymm h1 h2
    rw [max_comm, ← EReal.coe_neg, abs_eq_max_neg, EReal.coe_strictMono.monotone.map_max]
  rw [hab] at vw
  have e2 : (lift (norm V.pp.chk (m n)) : Res T) = .ok w := hw
  simp only [e2]
  refine (hA.addUp ss w _ _ he vw ⟨.inr (EReal.coe_ne_bot _), .inl (EReal.coe_ne_bot _)⟩).mono fun c ⟨z, hz, hz'⟩ => ?_
  rw [Finset.sum_range_succ, EReal.coe_add, hz, hz']

theorem check2_exact (hV : V.Ok Eq Eq) {a v : ℕ → ℕ → T} {A L : ℕ → ℕ → ℝ} {p : ℕ → ℕ} (hp : ∀ k < d, p k < d)
    (ha : ∀ i < d, ∀ j < d, val (a i j) = some (A i j : EReal))
    (hv : ∀ i < d, ∀ j < d, val (v i j) = some (L i j : EReal))
    (hI : ∀ r < d, ∀ k < d, ∑ j ∈ Finset.range d, (∑ l ∈ Finset.range d, A (p r) l * upPart L l j) * lowPart L j k =
      if r = k then 1 else 0) (j1 j2 : ℕ → Itv T) {n i : ℕ} (hn : i + n = d) :
    Post True (check2 V.pp a v p d j1 j2 n i) (· = true) := by
  have hd : V.Directed := Env.Ok.mono hV (fun h => h.le) (fun h => h.ge)
  induction n generalizing i with
  | zero => exact Post.pure rfl
  | succ n ih =>
    have hi : i < d := by omega
    refine (rowU_post (ex := True) hd (fun _ => hV) (fun j hj => ha (p i) (hp i hi) j hj) hv j1).bind fun m1 h1 => ?_
    refine (rowL_post hd (fun _ => hV) h1 hv hi j2).bind fun m2 h2 => (rowNorm_exact hV h2).bind fun ss he => ?_
    have h1' : val (Num.lit 1 : T) = some ((1 : ℝ) : EReal) := by rw [val_one]; rfl
    have e0 : ∑ k ∈ Finset.range d, |(∑ j ∈ Finset.range d, (∑ l ∈ Finset.range d, A (p i) l * upPart L l j) * lowPart L j k) -
        if i = k then 1 else 0| = 0 := Finset.sum_eq_zero fun k hk => by
      rw [hI i hi k (Finset.mem_range.1 hk), sub_self, abs_zero]
    rw [e0] at he
    rw [le_eq h1' he, decide_eq_false (by norm_cast), if_neg (by simp)]
    exact ih (by omega)
end

/-- With rational numbers `det_sign_algo2` decides the sign. -/
theorem detSign2_exact (hV : V.Ok Eq Eq) {a : ℕ → ℕ → ℚ}
    (hA : ∀ i < d, ∀ j < d, val (a i j) = some (A i j : EReal)) (junk : ℕ → ℕ → ℚ) (junk1 junk2 : ℕ → Itv ℚ) :
    V.Returns (detSign2 V.P a d junk junk1 junk2) fun z =>
      (z = 1 ∧ 0 < (sq d A).det) ∨ (z = -1 ∧ (sq d A).det < 0) ∨ (z = 0 ∧ (sq d A).det = 0) := by
  have ha : ∀ r < d, ∀ c < d, (a r c : ℝ) = A r c := fun r hr c hc => EReal.coe_injective (Option.some.inj (hA r hr c hc))
  unfold detSign2
  refine (approx2_exact ha junk).bind fun o ⟨h1, h2⟩ => ?_
  rcases o with _ | ⟨v, p, sig⟩
  · exact Env.Returns.pure (.inr (.inr ⟨rfl, h1 rfl⟩))
  · obtain ⟨u, ⟨σ, hσ, hsig⟩, hE, hv⟩ := h2 v p sig rfl
    dsimp only
    have hp : ∀ k < d, p k < d := fun k hk => by
      have := hσ ⟨k, hk⟩
      dsimp only at this
      rw [this]; exact (σ _).2
    have hI := fun r (hr : r < d) k (hk : k < d) => hE.inverse hσ hv hr hk
    have hL : ∀ i < d, ∀ j < d, val (v i j) = some (((v i j : ℚ) : ℝ) : EReal) := fun _ _ _ _ => rfl
    refine Env.Returns.bind (Q := (· = true)) (V.run hV (r := check2 V.pp a v p d junk1 junk2 d 0)
      (fun _ h => h.scope (check2_sim h.unprot _ _ _ _ _ _ _ _)) (check2_exact hV hp hA hL hI junk1 junk2 (zero_add d))) fun b hb => ?_
    rw [hb]
    refine Env.Returns.pure ?_
    rw [if_pos rfl]
    have hR : RecipSign ℚ := by
      intro r p c w hc hw _
      have hl1 : (Num.lit 1 : ℚ) = 1 := by change ((1 : ℤ) : ℚ) = 1; simp
      have hl0 : (Num.lit 0 : ℚ) = 0 := by change ((0 : ℤ) : ℚ) = 0; simp
      rw [hl1] at hc
      rw [hl0]
      obtain rfl : (c : ℝ) = w := EReal.coe_injective (Option.some.inj hw)
      change (if p = 0 then none else some (1 / p)) = some c at hc
      change _ ↔ decide (p < 0) = true
      split_ifs at hc
      obtain rfl := Option.some.inj hc
      rw [decide_eq_true_iff, Rat.cast_lt_zero, one_div_neg]
    have hdiv : ∀ j < d, ∃ r, Num.div r (Num.lit 1) (u (p j) j) = some (v j j) := fun j hj => ⟨.near, by
      rw [(hv j hj).diag]
      change (if u (p j) j = 0 then none else some (((1 : ℤ) : ℚ) / u (p j) j)) = _
      rw [if_neg (hE.1 j hj), Int.cast_one]⟩
    rcases sig_correct hR hsig hL hdiv (det_verified hσ fun i hi => by
      rw [Finset.sum_eq_zero fun k hk => by rw [hI i hi k (Finset.mem_range.1 hk), sub_self, abs_zero]]
      exact one_pos) with h | h
    · exact .inl h
    · exact .inr (.inl h)
end BI
