import Verif.Props.ExampleEnds
import Verif.Props.TrigDepth
import Verif.Props.Arith2
/-!
# C48: examples/findroot_demo.cpp with its own functions and data

`K` holds the constants for π. The library functions are assumed to give directed approximations (`Env.FnOk`). -/

set_option linter.unusedSectionVars false

namespace BI
open Set

section
variable {f : Fmt} (V : Env (Fl f)) {K : PiConst (Fl f)}

private theorem lit_val' (k : ℤ) (h : |k| ≤ 7) : val (Num.lit k : Fl f) = some ((k : ℝ) : EReal) := NumLaws.lit k h

/-- `sin(x)/(x*x+1)` notices the zeros of the sine. -/
theorem C48_demo1_notices (hk : V.kind ≠ .exact) (hf : V.FnOk LeB GeB .cos) (hK : Brackets K) (hK' : PiPos K) :
    ∃ N, ∀ fuel ≥ N, Notices1 V (demo1 V.P K fuel) {r | Real.sin r / (r * r + 1) = 0} := by
  obtain ⟨N, hN⟩ := C20_sin_depth V hk hf hK hK'
  have hV := Env.fl_directed V hk
  refine ⟨N, fun fuel hfuel x hx => ?_⟩
  have key : V.Returns (demo1 V.P K fuel x) fun z => ∀ r ∈ γ x, Real.sin r / (r * r + 1) ∈ γ z := by
    have hx' := hx
    obtain ⟨r₀, hr₀⟩ := hx
    have hp : ∀ r : ℝ, 0 < r * r + 1 := fun r => by nlinarith [mul_self_nonneg r]
    refine (hN fuel hfuel x hx').bind fun s hs => ?_
    refine (C03_mul V hV hx' hx').bind fun y hy => ?_
    refine (C01_add_num_right V hV (r := 1) ⟨_, hy r₀ hr₀ r₀ hr₀⟩ (by have := lit_val' (f := f) 1 (by decide); push_cast at this; exact this)).bind fun y' hy' => ?_
    refine (C04_div_partial V hV ⟨_, hs r₀ hr₀⟩ ⟨_, hy' _ (hy r₀ hr₀ r₀ hr₀), (hp r₀).ne'⟩ (.inl fl_inf)).mono fun z hz r hr => ?_
    exact hz _ (hs r hr) _ (hy' _ (hy r hr r hr)) (hp r).ne'
  refine key.mono fun z hz => ⟨.inl ?_, ?_⟩
  · obtain ⟨r₀, hr₀⟩ := hx; exact ⟨_, hz r₀ hr₀⟩
  · rintro ⟨r, hr, h0⟩
    have := hz r hr
    rwa [show Real.sin r / (r * r + 1) = 0 from h0] at this

/-- `sqrt(x*x-1)` notices 1 and -1. Between them the value is empty, which the checking policy must allow. -/
theorem C48_demo1'_notices (hk : V.kind ≠ .exact) (hE : V.checks.forbidsEmpty = false) :
    Notices1 V (demo1' V.P) {r | 0 ≤ r * r - 1 ∧ Real.sqrt (r * r - 1) = 0} := by
  have hV := Env.fl_directed V hk
  intro x hx
  obtain ⟨r₀, hr₀⟩ := hx
  refine (C03_mul V hV ⟨_, hr₀⟩ ⟨_, hr₀⟩).bind fun y hy => ?_
  refine (C02_sub_num_right V hV (r := 1) ⟨_, hy r₀ hr₀ r₀ hr₀⟩ (by have := lit_val' (f := f) 1 (by decide); push_cast at this; exact this)).bind fun y' hy' => ?_
  by_cases h : ∃ r ∈ γ y', 0 ≤ r
  · refine (C15_sqrt V hV ((V.fl_sqrtOk hk).mono (fun h => h.2.1) fun h => h.2.1) h).mono fun z hz => ⟨.inl ?_, ?_⟩
    · obtain ⟨r, hr, h0⟩ := h; exact ⟨_, hz r hr h0⟩
    · rintro ⟨r, hr, h0, h1⟩
      have := hz _ (hy' _ (hy r hr r hr)) h0
      rwa [h1] at this
  · push_neg at h
    have := C15_sqrt_neg V hV ⟨_, hy' _ (hy r₀ hr₀ r₀ hr₀)⟩ h
    unfold Env.YieldsEmpty at this
    rw [hE] at this
    refine Env.Returns.mono this fun z hz => ⟨.inr ⟨hz, hE⟩, ?_⟩
    rintro ⟨r, hr, h0, h1⟩
    exact absurd h0 (not_le.2 (h _ (hy' _ (hy r hr r hr))))

/-- The function of two variables. -/
noncomputable def demoF (x y : ℝ) : ℝ :=
  Real.sin x * Real.cos y - Real.exp (x * y) / 45 * ((x + y) ^ 2 + 100) - Real.cos (Real.sin y) * y / 4

theorem C48_demo2_notices (hk : V.kind ≠ .exact) (hf : V.FnOk LeB GeB .cos) (he : V.FnOk LeB GeB .exp) (hK : Brackets K) (hK' : PiPos K)
    {c45 c100 : Fl f} (h45 : val c45 = some ((45 : ℝ) : EReal)) (h100 : val c100 = some ((100 : ℝ) : EReal)) :
    ∃ N, ∀ fuel ≥ N, Notices2 V (demo2 V.P K fuel c45 c100) {p | demoF p.1 p.2 = 0} := by
  obtain ⟨N₁, hs⟩ := C20_sin_depth V hk hf hK hK'
  obtain ⟨N₂, hc⟩ := C20_cos_depth V hk hf hK hK'
  have hV := Env.fl_directed V hk
  have hT := V.fl_tight hk
  refine ⟨max N₁ N₂, fun fuel hfuel x y hx hy => ?_⟩
  have hs := hs fuel ((le_max_left _ _).trans hfuel)
  have hc := hc fuel ((le_max_right _ _).trans hfuel)
  have key : V.Returns (demo2 V.P K fuel c45 c100 x y) fun z => ∀ r ∈ γ x, ∀ s ∈ γ y, demoF r s ∈ γ z := by
    have hx' := hx
    have hy' := hy
    obtain ⟨r₀, i⟩ := hx
    obtain ⟨s₀, j⟩ := hy
    refine (hs x hx').bind fun s h1 => ?_
    refine (hc y hy').bind fun c h2 => ?_
    refine (C03_mul V hV ⟨_, h1 _ i⟩ ⟨_, h2 _ j⟩).bind fun a h3 => ?_
    refine (C03_mul V hV hx' hy').bind fun p h4 => ?_
    refine Env.Returns.bind (Q := fun e => ∀ r ∈ γ p, Real.exp r ∈ γ e) ?_ fun e h5 => ?_
    · exact (C19_enclose_partial V (K := K) (fuel := fuel) (f := .exp) hV rfl he hK (fun _ => fl_inf) ⟨_, h4 _ i _ j, trivial⟩).mono
        fun z hz r hr => hz r hr trivial
    refine (C04_div_num_right V hV ⟨_, h5 _ (h4 _ i _ j)⟩ h45 (by norm_num)).bind fun e h6 => ?_
    refine (C01_add V hV hx' hy').bind fun q h7 => ?_
    refine (C47_pow_partial V hT.signed ⟨_, h7 _ i _ j⟩ (k := 2) (by decide) (fun h => absurd h (by decide)) (fun h => absurd h (by decide))).bind
      fun q h8 => ?_
    have h8 := fun a ha => h8 a ha (fun h => absurd h (by decide))
    refine (C01_add_num_right V hV ⟨_, h8 _ (h7 _ i _ j)⟩ h100).bind fun q h9 => ?_
    refine (C03_mul V hV ⟨_, h6 _ (h5 _ (h4 _ i _ j))⟩ ⟨_, h9 _ (h8 _ (h7 _ i _ j))⟩).bind fun b h10 => ?_
    refine (C02_sub V hV ⟨_, h3 _ (h1 _ i) _ (h2 _ j)⟩ ⟨_, h10 _ (h6 _ (h5 _ (h4 _ i _ j))) _ (h9 _ (h8 _ (h7 _ i _ j)))⟩).bind fun d h11 => ?_
    refine (hs y hy').bind fun t h12 => ?_
    refine (hc t ⟨_, h12 _ j⟩).bind fun t h13 => ?_
    refine (C03_mul V hV ⟨_, h13 _ (h12 _ j)⟩ hy').bind fun t h14 => ?_
    refine (C04_div_num_right V hV ⟨_, h14 _ (h13 _ (h12 _ j)) _ j⟩ (lit_val' 4 (by decide)) (by norm_num)).bind fun t h15 => ?_
    refine (C02_sub V hV ⟨_, h11 _ (h3 _ (h1 _ i) _ (h2 _ j)) _ (h10 _ (h6 _ (h5 _ (h4 _ i _ j))) _ (h9 _ (h8 _ (h7 _ i _ j))))⟩
      ⟨_, h15 _ (h14 _ (h13 _ (h12 _ j)) _ j)⟩).mono fun z hz r i s j => ?_
    have := hz _ (h11 _ (h3 _ (h1 _ i) _ (h2 _ j)) _ (h10 _ (h6 _ (h5 _ (h4 _ i _ j))) _ (h9 _ (h8 _ (h7 _ i _ j))))) _
      (h15 _ (h14 _ (h13 _ (h12 _ j)) _ j))
    push_cast at this
    exact this
  refine key.mono fun z hz => ⟨.inl ?_, ?_⟩
  · obtain ⟨r, i⟩ := hx; obtain ⟨s, j⟩ := hy; exact ⟨_, hz r i s j⟩
  · rintro ⟨⟨r, s⟩, ⟨i, j⟩, h0⟩
    have := hz r i s j
    rwa [show demoF r s = 0 from h0] at this
end

/-! ## main -/

section
variable (V : Env (Fl .double)) {K : PiConst (Fl .double)} {eps : Fl .double} {xs ys : Itv (Fl .double)}

private theorem double_max : (64 : ℝ) ≤ (maxFin .double : ℝ) / 2 := by
  have : (128 : ℚ) ≤ maxFin .double := by decide +kernel
  have : (128 : ℝ) ≤ (maxFin .double : ℝ) := by exact_mod_cast this
  linarith

/-- findroot_demo.cpp 163-164: the ranges written contain all zeros of `sin(x)/(x*x+1)` in `[-11, 10]`. The width is
the number of type `double` next to 1e-6. -/
theorem C48_demo1_program (hk : V.kind ≠ .exact) (hf : V.FnOk LeB GeB .cos) (hK : Brackets K) (hK' : PiPos K)
    (he : val eps = some ((4722366482869645 / 2 ^ 72 : ℝ) : EReal)) (ha : val xs.lower = some ((-11 : ℝ) : EReal))
    (hb : val xs.upper = some ((10 : ℝ) : EReal)) :
    ∃ N, ∀ fuel ≥ N, ∃ n₀, ∀ n ≥ n₀, V.Returns (findZeros1 V.P (demo1 V.P K fuel) eps n [xs] [])
      (Found1 {r | Real.sin r / (r * r + 1) = 0} (-11) 10 (4722366482869645 / 2 ^ 72)) := by
  have hm := double_max
  obtain ⟨N, hN⟩ := C48_demo1_notices V hk hf hK hK'
  refine ⟨N, fun fuel hfuel => C48_find_zeros1_ends V hk (hN fuel hfuel) he ha hb (by norm_num) (le_trans (by norm_num [abs_le]) hm)
    (le_trans (by norm_num [abs_le]) hm) ⟨-49, by decide, ?_, ?_, by norm_num⟩⟩
  all_goals norm_num [abs_le, Fmt.double]

/-- findroot_demo.cpp 165-166 -/
theorem C48_demo1'_program (hk : V.kind ≠ .exact) (hE : V.checks.forbidsEmpty = false)
    (he : val eps = some ((4722366482869645 / 2 ^ 72 : ℝ) : EReal)) (ha : val xs.lower = some ((-5 : ℝ) : EReal))
    (hb : val xs.upper = some ((6 : ℝ) : EReal)) :
    ∃ n₀, ∀ n ≥ n₀, V.Returns (findZeros1 V.P (demo1' V.P) eps n [xs] [])
      (Found1 {r | 0 ≤ r * r - 1 ∧ Real.sqrt (r * r - 1) = 0} (-5) 6 (4722366482869645 / 2 ^ 72)) := by
  have hm := double_max
  refine C48_find_zeros1_ends V hk (C48_demo1'_notices V hk hE) he ha hb (by norm_num) (le_trans (by norm_num [abs_le]) hm)
    (le_trans (by norm_num [abs_le]) hm) ⟨-49, by decide, ?_, ?_, by norm_num⟩
  all_goals norm_num [abs_le, Fmt.double]

/-- findroot_demo.cpp 167-169; the width is the number of type `double` next to 5e-3. -/
theorem C48_demo2_program (hk : V.kind ≠ .exact) (hf : V.FnOk LeB GeB .cos) (hx : V.FnOk LeB GeB .exp) (hK : Brackets K) (hK' : PiPos K)
    {c45 c100 : Fl .double} (h45 : val c45 = some ((45 : ℝ) : EReal)) (h100 : val c100 = some ((100 : ℝ) : EReal))
    (he : val eps = some ((5764607523034235 / 2 ^ 60 : ℝ) : EReal)) (ha : val xs.lower = some ((-20 : ℝ) : EReal))
    (hb : val xs.upper = some ((20 : ℝ) : EReal)) (hc : val ys.lower = some ((-20 : ℝ) : EReal)) (hd : val ys.upper = some ((20 : ℝ) : EReal)) :
    ∃ N, ∀ fuel ≥ N, ∃ n₀, ∀ n ≥ n₀, V.Returns (findZeros2 V.P (demo2 V.P K fuel c45 c100) eps n [(xs, ys)] [])
      (Found2 {p | demoF p.1 p.2 = 0} (-20) 20 (-20) 20 (5764607523034235 / 2 ^ 60)) := by
  have hm := double_max
  have hR : Resolves .double (-20) 20 (5764607523034235 / 2 ^ 60) := by
    refine ⟨-48, by decide, ?_, ?_, by norm_num⟩ <;> norm_num [abs_le, Fmt.double]
  have hn : |(-20 : ℝ)| ≤ (maxFin .double : ℝ) / 2 := le_trans (by norm_num [abs_le]) hm
  have hp : |(20 : ℝ)| ≤ (maxFin .double : ℝ) / 2 := le_trans (by norm_num [abs_le]) hm
  obtain ⟨N, hN⟩ := C48_demo2_notices V hk hf hx hK hK' h45 h100
  exact ⟨N, fun fuel hfuel => C48_find_zeros2_ends V hk (hN fuel hfuel) he ha hb (by norm_num) hc hd (by norm_num) hn hp hn hp hR hR⟩
end

/-! ## Examples -/

/-- The type of the program over a correctly rounded library. -/
private noncomputable abbrev demoEnv : Env (Fl .double) := { dblOpp with checks := .base }

private theorem demo_cos : demoEnv.FnOk LeB GeB .cos := (demoEnv.ideal_ok .cos rfl (.inr ⟨rfl, rfl⟩)).directed
private theorem demo_exp : demoEnv.FnOk LeB GeB .exp := (demoEnv.ideal_ok .exp rfl (.inr ⟨rfl, rfl⟩)).directed

private abbrev num (q : ℚ) : Fl Fmt.double := rnd _ .near false q

private theorem num_val (q : ℚ) (m e : ℤ) (h : |m| < 2 ^ 53 ∧ -1074 ≤ e ∧ e ≤ 971) (hq : q = m * (2 : ℚ) ^ e) {r : ℝ} (hr : (q : ℝ) = r) :
    val (num q) = some ((r : ℝ) : EReal) := by rw [← hr]; exact rnd_exact _ _ ⟨m, e, h.1, h.2.1, h.2.2, hq⟩

private theorem num_int (q : ℚ) (k : ℤ) (h : |k| < 2 ^ 53) (hq : q = k) {r : ℝ} (hr : (q : ℝ) = r) : val (num q) = some (r : EReal) :=
  num_val q k 0 ⟨h, by norm_num, by norm_num⟩ (by rw [hq]; norm_num) hr

example := C48_demo1_program demoEnv (K := piDouble .near) (by decide) demo_cos (C21_double _).brackets (C21_double _).pos
  (eps := num (4722366482869645 / 2 ^ 72)) (xs := ⟨num (-11), num 10⟩)
  (num_val _ 4722366482869645 (-72) (by decide) (by norm_num) (by norm_num)) (num_int (-11) (-11) (by decide) (by norm_num) (by norm_num))
  (num_int 10 10 (by decide) (by norm_num) (by norm_num))

example := C48_demo1'_program demoEnv (by decide) rfl
  (eps := num (4722366482869645 / 2 ^ 72)) (xs := ⟨num (-5), num 6⟩)
  (num_val _ 4722366482869645 (-72) (by decide) (by norm_num) (by norm_num)) (num_int (-5) (-5) (by decide) (by norm_num) (by norm_num))
  (num_int 6 6 (by decide) (by norm_num) (by norm_num))

example := C48_demo2_program demoEnv (K := piDouble .near) (by decide) demo_cos demo_exp (C21_double _).brackets (C21_double _).pos
  (c45 := num 45) (c100 := num 100) (eps := num (5764607523034235 / 2 ^ 60)) (xs := ⟨num (-20), num 20⟩) (ys := ⟨num (-20), num 20⟩)
  (num_int 45 45 (by decide) (by norm_num) (by norm_num)) (num_int 100 100 (by decide) (by norm_num) (by norm_num))
  (num_val _ 5764607523034235 (-60) (by decide) (by norm_num) (by norm_num)) (num_int (-20) (-20) (by decide) (by norm_num) (by norm_num))
  (num_int 20 20 (by decide) (by norm_num) (by norm_num)) (num_int (-20) (-20) (by decide) (by norm_num) (by norm_num))
  (num_int 20 20 (by decide) (by norm_num) (by norm_num))

/-- The widths. -/
example : num (1 / 10 ^ 6) = num (4722366482869645 / 2 ^ 72) ∧ num (5 / 10 ^ 3) = num (5764607523034235 / 2 ^ 60) := by decide +kernel

end BI
