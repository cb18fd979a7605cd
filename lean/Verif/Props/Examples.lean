import Verif.Proofs.ExFilter2Exact
import Verif.Props.NoEmpty
/-!
# C48: the example programs

* examples/horner.cpp: `C48_horner`, `C48_horner_empty`
* examples/filter.cpp: `C48_filter1`, `C48_filter1_exact`, `C48_filter2_exact`, `C48_filter2_partial`, `C48_filter2_nan` -/

namespace BI
open Set

variable {T : Type} [Num T] [Val T] [NumLaws T] (V : Env T)

/-! ## horner.cpp -/

/-- Interval evaluation of a polynomial by Horner's rule: for all coefficients in the given intervals and all arguments in
`x`, the value of the polynomial lies in the result. -/
theorem C48_horner (hV : V.Directed) {n : ℕ} (hn : 0 < n) (q : Fin n → Itv T) (x : Itv T) (c : Fin n → ℝ) (t : ℝ)
    (hc : ∀ i, c i ∈ γ (q i)) (ht : t ∈ γ x) :
    V.Returns (horner V.P x (List.ofFn q)) fun z => ∑ i : Fin n, c i * t ^ (i : ℕ) ∈ γ z := by
  have hne : List.ofFn q ≠ [] := by
    intro h
    rw [List.ofFn_eq_nil_iff] at h
    omega
  refine V.run hV (fun _ h => horner_sim h x _) ((horner_post hV (rs := List.ofFn c) ht ?_ hne).mono fun z hz => ?_)
  · rw [List.forall₂_iff_get]
    refine ⟨by simp, fun i h1 h2 => ?_⟩
    simp only [List.get_ofFn]
    exact hc _
  · rwa [foldr_ofFn] at hz

/-- Without coefficients the program reads outside the array. -/
theorem C48_horner_empty (hV : V.Directed) (x : Itv T) : V.Throws (horner V.P x []) .ub := by
  obtain ⟨J, hJ⟩ := V.sim hV.kindOk
  exact V.throws_of (horner_sim hJ x []) rfl

/-! ## filter.cpp -/

/-- The sign of a determinant. -/
def SignOk {d : ℕ} (A : Matrix (Fin d) (Fin d) ℝ) (s : Int) : Prop := (s = 1 ∧ 0 < A.det) ∨ (s = -1 ∧ A.det < 0) ∨ s = 0

/-- A matrix extended by zeros. -/
private noncomputable def ext {d : ℕ} (A : Matrix (Fin d) (Fin d) ℝ) (i j : ℕ) : ℝ := if h : i < d ∧ j < d then A ⟨i, h.1⟩ ⟨j, h.2⟩ else 0

private theorem sq_ext {d : ℕ} (A : Matrix (Fin d) (Fin d) ℝ) : sq d (ext A) = A := by
  ext i j
  exact dif_pos ⟨i.2, j.2⟩

private theorem val_ext {d : ℕ} {A : Matrix (Fin d) (Fin d) ℝ} {a : ℕ → ℕ → T} (hA : ∀ i j : Fin d, val (a i j) = some (A i j : EReal)) :
    ∀ i < d, ∀ j < d, val (a i j) = some (ext A i j : EReal) := by
  intro i hi j hj
  rw [ext, dif_pos ⟨hi, hj⟩]
  exact hA ⟨i, hi⟩ ⟨j, hj⟩

/-- `det_sign_algo1` returns, and a sign other than zero is the sign of the determinant. -/
theorem C48_filter1 (hV : V.Directed) {d : ℕ} (A : Matrix (Fin d) (Fin d) ℝ) (a : ℕ → ℕ → T)
    (hA : ∀ i j : Fin d, val (a i j) = some (A i j : EReal)) (junk : ℕ → ℕ → Itv T) :
    V.Returns (detSign1 V.P a d junk) (SignOk A) := by
  refine V.run hV (fun _ h => detSign1_sim h a d junk) ((detSign1_post (ex := False) hV (fun h => h.elim) (val_ext hA) junk).mono ?_)
  rw [sq_ext]
  rintro s (h | h | h)
  exacts [.inl h, .inr (.inl h), .inr (.inr h.1)]

/-- With exact arithmetic `det_sign_algo1` decides the sign. -/
theorem C48_filter1_exact (hV : V.Ok Eq Eq) {d : ℕ} (A : Matrix (Fin d) (Fin d) ℝ) (a : ℕ → ℕ → T)
    (hA : ∀ i j : Fin d, val (a i j) = some (A i j : EReal)) (junk : ℕ → ℕ → Itv T) :
    V.Returns (detSign1 V.P a d junk) fun s => (s = 1 ↔ 0 < A.det) ∧ (s = -1 ↔ A.det < 0) ∧ (s = 0 ↔ A.det = 0) := by
  have hd : V.Directed := Env.Ok.mono hV (fun h => h.le) (fun h => h.ge)
  refine V.run hV (fun _ h => detSign1_sim h a d junk) ((detSign1_post (ex := True) hd (fun _ => hV) (val_ext hA) junk).mono ?_)
  rw [sq_ext]
  rintro s (⟨rfl, h⟩ | ⟨rfl, h⟩ | ⟨rfl, h⟩)
  · exact ⟨by simp [h], by simp [h.le], by simp [h.ne']⟩
  · exact ⟨by simp [h.le], by simp [h], by simp [h.ne]⟩
  · have := h trivial
    simp [this]

/-- With rational numbers `det_sign_algo2` decides the sign: it finds a pivot if there is one, the factors and their inverses
are exact, and the check succeeds. -/
theorem C48_filter2_exact (V : Env ℚ) (hV : V.Ok Eq Eq) {d : ℕ} (A : Matrix (Fin d) (Fin d) ℝ) (a : ℕ → ℕ → ℚ)
    (hA : ∀ i j : Fin d, val (a i j) = some (A i j : EReal)) (junk : ℕ → ℕ → ℚ) (junk1 junk2 : ℕ → Itv ℚ) :
    V.Returns (detSign2 V.P a d junk junk1 junk2) fun s => (s = 1 ↔ 0 < A.det) ∧ (s = -1 ↔ A.det < 0) ∧ (s = 0 ↔ A.det = 0) := by
  refine (detSign2_exact hV (val_ext hA) junk junk1 junk2).mono ?_
  rw [sq_ext]
  rintro s (⟨rfl, h⟩ | ⟨rfl, h⟩ | ⟨rfl, h⟩)
  · exact ⟨by simp [h], by simp [h.le], by simp [h.ne']⟩
  · exact ⟨by simp [h.le], by simp [h], by simp [h.ne]⟩
  · simp [h]

/-- `det_sign_algo2` on floating-point numbers of any format, in whatever rounding direction the approximate factorisation
is computed. What is missing: the case that the approximate inverses contain NaN or infinities, where the program can
return the wrong sign (`C48_filter2_nan`). -/
theorem C48_filter2_partial {f : Fmt} (V : Env (Fl f)) (hV : V.Directed) {d : ℕ} (A : Matrix (Fin d) (Fin d) ℝ) (a : ℕ → ℕ → Fl f)
    (hA : ∀ i j : Fin d, val (a i j) = some (A i j : EReal)) (junk : ℕ → ℕ → Fl f) (junk1 junk2 : ℕ → Itv (Fl f))
    (s : V.State) (hs : V.Valid s)
    (hf : ∀ v p sig, (approx2 V.P a d junk s).1 = .ok (some (v, p, sig)) → ∀ i < d, ∀ j < d, ∃ r : ℝ, val (v i j) = some (r : EReal)) :
    ∃ z, (detSign2 V.P a d junk junk1 junk2 s).1 = .ok z ∧ (detSign2 V.P a d junk junk1 junk2 s).2.cw = s.cw ∧ SignOk A z := by
  have := detSign2_at hV fl_total fl_recipSign (val_ext hA) junk junk1 junk2 s hs hf
  rwa [sq_ext] at this

/-- The matrix `(1, M, 0; -1, M, 0; -1, M, -1)` with the largest `double` `M`. -/
def nanMat : ℕ → ℕ → Fl .double
  | 0, 0 => Fl.ofInt .near 1
  | 1, 0 => Fl.ofInt .near (-1)
  | 2, 0 => Fl.ofInt .near (-1)
  | _, 1 => Fl.max _ false
  | 2, 2 => Fl.ofInt .near (-1)
  | _, _ => Fl.ofInt .near 0

/-- The approximate factorisation of this matrix overflows, the inverses contain NaN, and the test `ss >= 1` of the sum of
norms fails because the sum is NaN: with the default policies the program certifies the sign `+1` of a negative
determinant. -/
theorem C48_filter2_nan : ∃ A : Matrix (Fin 3) (Fin 3) ℝ, (∀ i j : Fin 3, val (nanMat i j) = some (A i j : EReal)) ∧ A.det < 0 ∧
    (detSign2 dbl.P nanMat 3 (fun _ _ => Fl.ofInt .near 0) (fun _ => litI 0 0) (fun _ => litI 0 0) dblNear).1 = .ok 1 := by
  have h1 : val (Fl.ofInt .near 1 : Fl .double) = some ((1 : ℝ) : EReal) := val_one
  have h0 : val (Fl.ofInt .near 0 : Fl .double) = some ((0 : ℝ) : EReal) := val_zero
  have hm : val (Fl.ofInt .near (-1) : Fl .double) = some ((-1 : ℝ) : EReal) := by
    have := NumLaws.lit (T := Fl .double) (-1) (by decide); push_cast at this; exact this
  have hM : val (Fl.max .double false) = some (((maxFin Fmt.double : ℚ) : ℝ) : EReal) := rfl
  refine ⟨!![1, ((maxFin Fmt.double : ℚ) : ℝ), 0; -1, ((maxFin Fmt.double : ℚ) : ℝ), 0; -1, ((maxFin Fmt.double : ℚ) : ℝ), -1], ?_, ?_, ?_⟩
  · intro i j
    fin_cases i <;> fin_cases j
    exacts [h1, hM, h0, hm, hM, h0, hm, hM, hm]
  · rw [Matrix.det_fin_three]
    have : (0 : ℚ) < maxFin Fmt.double := by decide +kernel
    simpa using this
  · decide +kernel

/-! ## The hypotheses can be met -/

private abbrev mat2 (a b c d : Int) (T : Type) [Num T] : ℕ → ℕ → T := fun i j =>
  if i = 0 then (if j = 0 then Num.lit a else Num.lit b) else (if j = 0 then Num.lit c else Num.lit d)

private theorem val_mat2 {a b c d : Int} (ha : |a| ≤ 7) (hb : |b| ≤ 7) (hc : |c| ≤ 7) (hd : |d| ≤ 7) :
    ∀ i j : Fin 2, val (mat2 a b c d T i j) = some ((!![(a : ℝ), b; c, d] i j : ℝ) : EReal) := by
  intro i j
  fin_cases i <;> fin_cases j
  exacts [NumLaws.lit a ha, NumLaws.lit b hb, NumLaws.lit c hc, NumLaws.lit d hd]

example := C48_horner dbl dbl_directed (n := 3) (by decide) ![litI 1 2, litI 0 1, litI (-1) 3] (litI 2 3) ![1, 0, 2] 2
  (fun i => by fin_cases i <;> exact in_lit) in_lit
example := C48_horner_empty flt flt_directed (litI 2 3)
example := C48_filter1 dbl dbl_directed !![((1 : ℤ) : ℝ), (2 : ℤ); (3 : ℤ), (4 : ℤ)] (mat2 1 2 3 4 _)
  (val_mat2 (by decide) (by decide) (by decide) (by decide)) fun _ _ => litI 0 0
example := C48_filter1_exact ratEnv (ratEnv.rat_ok rfl (fun _ _ _ _ => rfl) _ _) !![((1 : ℤ) : ℝ), (2 : ℤ); (3 : ℤ), (6 : ℤ)] (mat2 1 2 3 6 _)
  (val_mat2 (by decide) (by decide) (by decide) (by decide)) fun _ _ => litI 0 0

example := C48_filter2_exact ratEnv (ratEnv.rat_ok rfl (fun _ _ _ _ => rfl) _ _) !![((0 : ℤ) : ℝ), (2 : ℤ); (3 : ℤ), (6 : ℤ)] (mat2 0 2 3 6 _)
  (val_mat2 (by decide) (by decide) (by decide) (by decide)) (fun _ _ => 5) (fun _ => litI 1 2) fun _ => litI 0 3

/-- The program certifies signs. -/
example : (detSign2 dbl.P (mat2 1 2 3 4 _) 2 (fun _ _ => Fl.ofInt .near 0) (fun _ => litI 0 0) (fun _ => litI 0 0) dblNear).1
    = .ok (-1) := by
  decide +kernel

private noncomputable abbrev mat2Run := (approx2 dbl.P (mat2 1 2 3 4 _) 2 (fun _ _ => Fl.ofInt .near 0) dblNear).1

/-- A finite number, as a boolean. -/
private def finB {f : Fmt} : Fl f → Bool
  | .nan => false
  | .inf _ => false
  | _ => true

private theorem finB_val {f : Fmt} {a : Fl f} (h : finB a = true) : ∃ r : ℝ, val a = some (r : EReal) := by
  cases a with
  | nan => cases h
  | inf s => cases h
  | zero s => exact ⟨0, rfl⟩
  | nz q _ => exact ⟨q, rfl⟩

example := C48_filter2_partial dbl dbl_directed !![((1 : ℤ) : ℝ), (2 : ℤ); (3 : ℤ), (4 : ℤ)] (mat2 1 2 3 4 _)
    (val_mat2 (by decide) (by decide) (by decide) (by decide)) (fun _ _ => Fl.ofInt .near 0) (fun _ => litI 0 0) (fun _ => litI 0 0)
    dblNear (by trivial) (by
      intro v p sig h i hi j hj
      have hfin : ∀ i < 2, ∀ j < 2, (match mat2Run with
          | .ok (some (v, _, _)) => finB (v i j : Fl .double)
          | _ => false) = true := by decide +kernel
      have := hfin i hi j hj
      rw [show mat2Run = _ from h] at this
      exact finB_val this)

end BI
