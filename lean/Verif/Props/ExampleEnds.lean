import Verif.Proofs.ExTerm
import Verif.Props.ExampleRoots
/-!
# C48: the example programs that look for zeros come to an end

* examples/findroot_demo.cpp: `C48_find_zeros1_ends`, `C48_find_zeros2_ends`
* examples/newton-raphson.cpp: `C48_newton1_ends`, `C48_newton2_ends`, and for the data of the program
  `C48_newton1_program`, `C48_newton2_program` -/

set_option linter.unusedSectionVars false

namespace BI
open Set

section
variable {f : Fmt} (V : Env (Fl f)) {a b c d e : ℝ} {eps : Fl f} {xs ys : Itv (Fl f)}

private theorem scale_of {g : ℤ} (h1 : f.emin ≤ g) (h2 : |a| ≤ 2 ^ (g + f.p)) (h3 : |b| ≤ 2 ^ (g + f.p)) (h4 : (2 : ℝ) ^ (g + 2) < e)
    (he : val eps = some (e : EReal)) (ha : |a| ≤ (maxFin f : ℝ) / 2) (hb : |b| ≤ (maxFin f : ℝ) / 2) : Scale f a b g := by
  obtain ⟨q, hq, rfl⟩ := Rep.of_val he
  have hM : |(q : ℝ)| ≤ (maxFin f : ℝ) := by exact_mod_cast rep_abs_le hq
  exact ⟨h1, (abs_le.1 h2).1, (abs_le.1 h3).2, (abs_le.1 ha).1, (abs_le.1 hb).2, h4.le.trans ((le_abs_self _).trans hM)⟩

/-- `find_zeros` in one dimension ends if the width asked for exceeds four steps of the numbers in the search range. -/
theorem C48_find_zeros1_ends (hk : V.kind ≠ .exact) {g : Itv (Fl f) → M V.ctl.W (Itv (Fl f))} {Z : Set ℝ} (hg : Notices1 V g Z)
    (he : val eps = some (e : EReal)) (ha : val xs.lower = some (a : EReal)) (hb : val xs.upper = some (b : EReal)) (hab : a ≤ b)
    (ha' : |a| ≤ (maxFin f : ℝ) / 2) (hb' : |b| ≤ (maxFin f : ℝ) / 2) (hR : Resolves f a b e) :
    ∃ n₀, ∀ n ≥ n₀, V.Returns (findZeros1 V.P g eps n [xs] []) (Found1 Z a b e) := by
  obtain ⟨k, h1, h2, h3, h4⟩ := hR
  refine ⟨turns (steps xs), fun n hn s hs => ?_⟩
  obtain ⟨g1, g2⟩ := found1 (zdata_fl_term hk he (scale_of h1 h2 h3 h4 he ha' hb') ha' hb' h4) hg ha hb hab n s hs
  cases ho : (findZeros1 V.P g eps n [xs] [] s).1 with
  | ok R => rw [ho] at g2; exact ⟨R, rfl, g1, g2⟩
  | error err => rw [ho] at g2; exact absurd (g2.2 trivial) (not_lt.2 hn)

theorem C48_find_zeros2_ends (hk : V.kind ≠ .exact) {g : Itv (Fl f) → Itv (Fl f) → M V.ctl.W (Itv (Fl f))} {Z : Set (ℝ × ℝ)} (hg : Notices2 V g Z)
    (he : val eps = some (e : EReal)) (ha : val xs.lower = some (a : EReal)) (hb : val xs.upper = some (b : EReal)) (hab : a ≤ b)
    (hc : val ys.lower = some (c : EReal)) (hd : val ys.upper = some (d : EReal)) (hcd : c ≤ d)
    (ha' : |a| ≤ (maxFin f : ℝ) / 2) (hb' : |b| ≤ (maxFin f : ℝ) / 2) (hc' : |c| ≤ (maxFin f : ℝ) / 2) (hd' : |d| ≤ (maxFin f : ℝ) / 2)
    (hR : Resolves f a b e) (hR' : Resolves f c d e) :
    ∃ n₀, ∀ n ≥ n₀, V.Returns (findZeros2 V.P g eps n [(xs, ys)] []) (Found2 Z a b c d e) := by
  obtain ⟨k, h1, h2, h3, h4⟩ := hR
  obtain ⟨k', h1', h2', h3', h4'⟩ := hR'
  refine ⟨turns (steps xs + steps ys), fun n hn s hs => ?_⟩
  obtain ⟨g1, g2⟩ := found2 (zdata_fl_term hk he (scale_of h1 h2 h3 h4 he ha' hb') ha' hb' h4)
    (zdata_fl_term hk he (scale_of h1' h2' h3' h4' he hc' hd') hc' hd' h4') hg ha hb hab hc hd hcd n s hs
  cases ho : (findZeros2 V.P g eps n [(xs, ys)] [] s).1 with
  | ok R => rw [ho] at g2; exact ⟨R, rfl, g1, g2⟩
  | error err => rw [ho] at g2; exact absurd (g2.2 trivial) (not_lt.2 hn)

variable {N : Newton (M V.ctl.W) (Fl f)} {F F' : ℝ → ℝ} {mw al : ℝ}

/-- The first method ends if moreover narrow intervals never have both a value and a derivative around zero. -/
theorem C48_newton1_ends (hk : V.kind ≠ .exact) (hN : NewtonOk V N F F' a b mw) (hα : val N.alpha = some (al : EReal)) (hα' : |al| ≤ 3 / 4)
    (ha : val xs.lower = some (a : EReal)) (hb : val xs.upper = some (b : EReal)) (hab : a ≤ b)
    (ha' : |a| ≤ (maxFin f : ℝ) / 2) (hb' : |b| ≤ (maxFin f : ℝ) / 2) (hR : Resolves f a b mw) (hS : Separates V N a b mw) :
    ∃ n₀, ∀ n ≥ n₀, ∀ s : V.State, V.Valid s →
      (V.P.rnd.scope (newton1 V.P.unprot N n [xs] []) s).2.cw = s.cw ∧
      match (V.P.rnd.scope (newton1 V.P.unprot N n [xs] []) s).1 with
      | .ok res => Isolates F (Icc a b) a b mw res
      | .error e => e = .emptyCreated ∧ V.checks.forbidsEmpty = true ∧ ∃ t ∈ Icc a b, Representable (Fl f) (t : EReal) ∧ F' t = 0 := by
  obtain ⟨g, h1, h2, h3, h4⟩ := hR
  have hT : TermOk V N a b mw al g := ⟨hk, scale_of h1 h2 h3 h4 hN.width ha' hb', ha', hb', h4, hα, hα'⟩
  have e4 : (2 : ℝ) ^ (g + 2) = 4 * 2 ^ g := by rw [zpow_add₀ two_ne_zero]; norm_num; ring
  refine ⟨turns (steps xs), fun n hn s hs => ?_⟩
  have h := C48_newton1 V hk hN hα (hα'.trans (by norm_num)) ha hb hab ha' hb' n s hs
  refine ⟨h.1, ?_⟩
  have ht := newton1_term hT hN (fun l u q1 q2 q3 q4 => hS l u q1 q2 q3 (q4.trans (e4 ▸ h4))) n [xs] []
    ⟨fun z hz => by rw [List.mem_singleton.1 hz]; exact ⟨a, b, ha, hb, le_rfl, hab, le_rfl⟩, fun z hz => (by cases hz), fun r hr => hr.elim⟩
  have ht := (tri_scope hk ht s hs).2
  cases ho : (V.P.rnd.scope (newton1 V.P.unprot N n [xs] []) s).1 with
  | ok R => rw [ho] at h; exact h.2
  | error e =>
    rw [ho] at h ht
    rcases h.2 with h | h
    · have := ht h
      simp only [List.map_cons, List.map_nil, List.sum_cons, List.sum_nil] at this
      omega
    · exact h

/-- The second method ends. -/
theorem C48_newton2_ends (hk : V.kind ≠ .exact) (hE : V.checks.forbidsEmpty = false) (hN : NewtonOk V N F F' a b mw)
    (hα : val N.alpha = some (al : EReal)) (hα' : |al| ≤ 3 / 4)
    (ha : val xs.lower = some (a : EReal)) (hb : val xs.upper = some (b : EReal)) (hab : a ≤ b)
    (ha' : |a| ≤ (maxFin f : ℝ) / 2) (hb' : |b| ≤ (maxFin f : ℝ) / 2) (hR : Resolves f a b mw) :
    ∃ n₀, ∀ n ≥ n₀, V.Returns (V.P.rnd.scope (newton2 V.P.unprot N n [xs] [])) (Isolates F (Icc a b) a b mw) := by
  obtain ⟨g, h1, h2, h3, h4⟩ := hR
  have hT : TermOk V N a b mw al g := ⟨hk, scale_of h1 h2 h3 h4 hN.width ha' hb', ha', hb', h4, hα, hα'⟩
  refine ⟨turns (steps xs), fun n hn s hs => ?_⟩
  have h := C48_newton2 V hk hE hN hα (hα'.trans (by norm_num)) ha hb hab ha' hb' n s hs
  have ht := newton2_term hT hE hN n [xs] []
    (fun z hz => by rw [List.mem_singleton.1 hz]; exact ⟨a, b, ha, hb, le_rfl, hab, le_rfl⟩)
  have ht := (tri_scope hk ht s hs).2
  cases ho : (V.P.rnd.scope (newton2 V.P.unprot N n [xs] []) s).1 with
  | ok R => rw [ho] at h; exact ⟨R, rfl, h.1, h.2⟩
  | error e =>
    rw [ho] at ht
    have ht : n < _ := ht
    simp only [List.map_cons, List.map_nil, List.sum_cons, List.sum_nil] at ht
    omega
end

/-! ## The data of newton-raphson.cpp -/

section
variable (V : Env (Fl .double)) {x y : Itv (Fl .double)}

private theorem rep32 {q : ℚ} (h1 : (q * 2 ^ 45).den = 1) (h2 : |(q * 2 ^ 45).num| < 2 ^ 53) : Rep .double q := by
  refine ⟨(q * 2 ^ 45).num, -45, h2, by decide, by decide, ?_⟩
  have : ((q * 2 ^ 45).num : ℚ) = q * 2 ^ 45 := by
    conv_rhs => rw [← Rat.num_div_den (q * 2 ^ 45)]
    rw [h1]; norm_num
  rw [this]; norm_num; ring

/-- Operations whose exact result lies between two numbers of the type stay between them. -/
private theorem in_of {z : Itv (Fl .double)} {S : Set ℝ} {A B : ℚ} (h : SmallestEnclosure z S) (hS : S.Nonempty) (hs : S ⊆ Icc (A : ℝ) (B : ℝ)) (hA : Rep .double A)
    (hB : Rep .double B) : (γ z).Nonempty ∧ ∀ r ∈ γ z, (A : ℝ) ≤ r ∧ r ≤ (B : ℝ) := by
  obtain ⟨tA, hA⟩ := rep_real hA
  obtain ⟨tB, hB⟩ := rep_real hB
  obtain ⟨s, hs'⟩ := hS
  have hAB : (A : ℝ) ≤ B := (hs hs').1.trans (hs hs').2
  have e := box_gamma (z := ⟨tA, tB⟩) hA hB hAB
  refine ⟨⟨s, h.1 hs'⟩, fun r hr => ?_⟩
  have := (h.2 ⟨tA, tB⟩ (by rw [e]; exact hs)).1 hr
  rw [e] at this; exact this

/-- Away from zero, with one sign. -/
private def Sgn (n : ℕ) (x : Itv (Fl .double)) : Prop :=
  (γ x).Nonempty ∧ ((∀ s ∈ γ x, (1 / 2 ^ (9 * n) : ℝ) ≤ s ∧ s ≤ 8 ^ n) ∨ ∀ s ∈ γ x, -(8 ^ n : ℝ) ≤ s ∧ s ≤ -(1 / 2 ^ (9 * n)))

private theorem rep_sgn {n : ℕ} (hn : n ≤ 5) : Rep .double (1 / 2 ^ (9 * n)) ∧ Rep .double (8 ^ n) ∧ Rep .double (-(8 ^ n)) ∧ Rep .double (-(1 / 2 ^ (9 * n))) := by
  have h1 : Rep .double (1 / 2 ^ (9 * n)) := by
    interval_cases n <;> exact rep32 (by decide +kernel) (by decide +kernel)
  have h2 : Rep .double (8 ^ n) := ⟨1, 3 * n, by decide, by change (-1074 : ℤ) ≤ _; omega, by change _ ≤ (971 : ℤ); omega, by
    rw [zpow_mul]; norm_num⟩
  exact ⟨h1, h2, rep_neg h2, rep_neg h1⟩

private theorem mul_sgn (hk : V.kind ≠ .exact) {n : ℕ} (hn : n ≤ 4) (hx : Sgn n x) (hy : Sgn 1 y) :
    Post True (mulII V.pp x y) (Sgn (n + 1)) := by
  obtain ⟨nx, hx⟩ := hx
  obtain ⟨ny, hy⟩ := hy
  obtain ⟨_, _, ix⟩ := has_of_nonempty nx
  obtain ⟨_, _, iy⟩ := has_of_nonempty ny
  refine (mulII_post ((V.fl_tight hk).dir du_tight).op V.chk ix iy).mono fun z hz => ?_
  have hz := hz.smallest (nx.image2 ny)
  obtain ⟨r1, r2, r3, r4⟩ := rep_sgn (n := n + 1) (by omega)
  have e1 : (1 / 2 ^ (9 * (n + 1)) : ℝ) = 1 / 2 ^ (9 * n) * (1 / 2 ^ (9 * 1)) := by rw [mul_add, pow_add]; field_simp
  have e2 : (8 ^ (n + 1) : ℝ) = 8 ^ n * 8 ^ 1 := by rw [pow_add]
  have p1 : (0 : ℝ) < 1 / 2 ^ (9 * n) := by positivity
  have p2 : (0 : ℝ) < 1 / 2 ^ (9 * 1) := by positivity
  have p3 : (0 : ℝ) < 8 ^ n := by positivity
  have p4 : (0 : ℝ) < 8 ^ 1 := by positivity
  have pos : ∀ s t : ℝ, (1 / 2 ^ (9 * n) ≤ s ∧ s ≤ 8 ^ n) → (1 / 2 ^ (9 * 1) ≤ t ∧ t ≤ 8 ^ 1) → 1 / 2 ^ (9 * (n + 1)) ≤ s * t ∧ s * t ≤ 8 ^ (n + 1) := by
    intro s t h h'
    rw [e1, e2]
    exact ⟨mul_le_mul h.1 h'.1 p2.le (p1.le.trans h.1), mul_le_mul h.2 h'.2 (p2.le.trans h'.1) p3.le⟩
  rcases hx with hx | hx <;> rcases hy with hy | hy
  · have := in_of hz (nx.image2 ny) (A := 1 / 2 ^ (9 * (n + 1))) (B := 8 ^ (n + 1)) ?_ r1 r2
    · push_cast at this; exact ⟨this.1, .inl this.2⟩
    · rintro _ ⟨s, hs, t, ht, rfl⟩
      push_cast
      exact pos s t (hx s hs) (hy t ht)
  · have := in_of hz (nx.image2 ny) (A := -8 ^ (n + 1)) (B := -(1 / 2 ^ (9 * (n + 1)))) ?_ r3 r4
    · push_cast at this; exact ⟨this.1, .inr this.2⟩
    · rintro _ ⟨s, hs, t, ht, rfl⟩
      push_cast
      have := pos s (-t) (hx s hs) ⟨by linarith [(hy t ht).2], by linarith [(hy t ht).1]⟩
      constructor <;> linarith [this.1, this.2]
  · have := in_of hz (nx.image2 ny) (A := -8 ^ (n + 1)) (B := -(1 / 2 ^ (9 * (n + 1)))) ?_ r3 r4
    · push_cast at this; exact ⟨this.1, .inr this.2⟩
    · rintro _ ⟨s, hs, t, ht, rfl⟩
      push_cast
      have := pos (-s) t ⟨by linarith [(hx s hs).2], by linarith [(hx s hs).1]⟩ (hy t ht)
      constructor <;> linarith [this.1, this.2]
  · have := in_of hz (nx.image2 ny) (A := 1 / 2 ^ (9 * (n + 1))) (B := 8 ^ (n + 1)) ?_ r1 r2
    · push_cast at this; exact ⟨this.1, .inl this.2⟩
    · rintro _ ⟨s, hs, t, ht, rfl⟩
      push_cast
      have := pos (-s) (-t) ⟨by linarith [(hx s hs).2], by linarith [(hx s hs).1]⟩ ⟨by linarith [(hy t ht).2], by linarith [(hy t ht).1]⟩
      constructor <;> linarith [this.1, this.2]

private theorem sub_sgn (hk : V.kind ≠ .exact) {k : ℤ} (h : |k| ≤ 7) (nx : (γ x).Nonempty)
    (hx : (∀ s ∈ γ x, (k + 1 / 512 : ℝ) ≤ s ∧ s ≤ k + 8) ∨ ∀ s ∈ γ x, (k - 8 : ℝ) ≤ s ∧ s ≤ k - 1 / 512) :
    Post True (subIT V.pp x (Num.lit k)) (Sgn 1) := by
  obtain ⟨_, _, ix⟩ := has_of_nonempty nx
  have hv : val (Num.lit k : Fl .double) = some ((k : ℝ) : EReal) := NumLaws.lit k h
  refine (subIT_post ((V.fl_tight hk).dir du_tight).op V.chk hv ix).mono fun z hz => ?_
  have hS := nx.image2 (singleton_nonempty (k : ℝ)) (f := (· - ·))
  have hz := hz.smallest hS
  obtain ⟨r1, r2, r3, r4⟩ := rep_sgn (n := 1) (by omega)
  rcases hx with hx | hx
  · have := in_of hz hS (A := 1 / 2 ^ (9 * 1)) (B := 8 ^ 1) ?_ r1 r2
    · push_cast at this; exact ⟨this.1, .inl this.2⟩
    · rintro _ ⟨s, hs, t, rfl, rfl⟩
      push_cast
      constructor <;> linarith [(hx s hs).1, (hx s hs).2]
  · have := in_of hz hS (A := -8 ^ 1) (B := -(1 / 2 ^ (9 * 1))) ?_ r3 r4
    · push_cast at this; exact ⟨this.1, .inr this.2⟩
    · rintro _ ⟨s, hs, t, rfl, rfl⟩
      push_cast
      constructor <;> linarith [(hx s hs).1, (hx s hs).2]

private theorem quintic_away (hk : V.kind ≠ .exact) {l u : ℝ} (hl : val x.lower = some (l : EReal)) (hu : val x.upper = some (u : EReal))
    (h1 : -1 ≤ l) (h2 : l ≤ u) (h3 : u ≤ 6) (h : ∀ k : ℤ, 0 ≤ k → k ≤ 4 → u ≤ k - 1 / 512 ∨ k + 1 / 512 ≤ l) :
    V.ReturnsInside (quintic V.P.unprot x) fun y => (0 : ℝ) ∉ γ y := by
  have e := box_gamma hl hu h2
  have nx : (γ x).Nonempty := by rw [e]; exact ⟨l, le_rfl, h2⟩
  have hx : ∀ k : ℤ, 0 ≤ k → k ≤ 4 → (∀ s ∈ γ x, (k + 1 / 512 : ℝ) ≤ s ∧ s ≤ k + 8) ∨ ∀ s ∈ γ x, (k - 8 : ℝ) ≤ s ∧ s ≤ k - 1 / 512 := by
    intro k g1 g2
    have g1' : (0 : ℝ) ≤ k := by exact_mod_cast g1
    have g2' : (k : ℝ) ≤ 4 := by exact_mod_cast g2
    rw [e]
    rcases h k g1 g2 with h | h
    · exact .inr fun s hs => ⟨by linarith [hs.1], by linarith [hs.2]⟩
    · exact .inl fun s hs => ⟨by linarith [hs.1], by linarith [hs.2]⟩
  have s0 : Sgn 1 x := by
    refine ⟨nx, ?_⟩
    rcases hx 0 le_rfl (by norm_num) with h | h
    · exact .inl fun s hs => by have := h s hs; push_cast at this; norm_num; exact ⟨by linarith [this.1], by linarith [this.2]⟩
    · exact .inr fun s hs => by have := h s hs; push_cast at this; norm_num; exact ⟨by linarith [this.1], by linarith [this.2]⟩
  refine tri_inside (Tri.of_sim (quintic_sim (V.simU hk) x) (Post.toE ?_))
  unfold quintic
  refine (sub_sgn V hk (k := 1) (by decide) nx (hx 1 (by norm_num) (by norm_num))).bind fun x1 h1 => ?_
  refine (mul_sgn V hk (by norm_num) s0 h1).bind fun y hy => ?_
  refine (sub_sgn V hk (k := 2) (by decide) nx (hx 2 (by norm_num) (by norm_num))).bind fun x2 h2 => ?_
  refine (mul_sgn V hk (by norm_num) hy h2).bind fun y hy => ?_
  refine (sub_sgn V hk (k := 3) (by decide) nx (hx 3 (by norm_num) (by norm_num))).bind fun x3 h3 => ?_
  refine (mul_sgn V hk (by norm_num) hy h3).bind fun y hy => ?_
  refine (sub_sgn V hk (k := 4) (by decide) nx (hx 4 (by norm_num) (by norm_num))).bind fun x4 h4 => ?_
  refine (mul_sgn V hk (by norm_num) hy h4).mono fun y hy h0 => ?_
  rcases hy.2 with h | h
  · exact absurd (h 0 h0).1 (by norm_num)
  · exact absurd (h 0 h0).2 (by norm_num)

/-- Near a number. -/
private def Near (c r : ℚ) (x : Itv (Fl .double)) : Prop := (γ x).Nonempty ∧ ∀ s ∈ γ x, |s - c| ≤ r

private theorem near_of {z : Itv (Fl .double)} {S : Set ℝ} {c r : ℚ} (h : SmallestEnclosure z S) (hS : S.Nonempty) (hs : ∀ s ∈ S, |s - c| ≤ r)
    (hA : Rep .double (c - r)) (hB : Rep .double (c + r)) : Near c r z := by
  have := in_of h hS (A := c - r) (B := c + r) (fun s hs' => by
    have := abs_le.1 (hs s hs'); push_cast; exact ⟨by linarith [this.1], by linarith [this.2]⟩) hA hB
  push_cast at this
  exact ⟨this.1, fun s hs => abs_le.2 ⟨by linarith [(this.2 s hs).1], by linarith [(this.2 s hs).2]⟩⟩

private theorem mul_near (hk : V.kind ≠ .exact) {c r k e c' r' : ℚ} (hx : Near c r x) (hy : Near k e y) (hc : c' = c * k) (hr : |c| * e + |k| * r + r * e ≤ r')
    (hA : Rep .double (c' - r')) (hB : Rep .double (c' + r')) : Post True (mulII V.pp x y) (Near c' r') := by
  obtain ⟨nx, hx⟩ := hx
  obtain ⟨ny, hy⟩ := hy
  obtain ⟨_, _, ix⟩ := has_of_nonempty nx
  obtain ⟨_, _, iy⟩ := has_of_nonempty ny
  refine (mulII_post ((V.fl_tight hk).dir du_tight).op V.chk ix iy).mono fun z hz => near_of (hz.smallest (nx.image2 ny)) (nx.image2 ny) ?_ hA hB
  rintro _ ⟨s, hs, t, ht, rfl⟩
  have h1 := hx s hs
  have h2 := hy t ht
  have hr : (|(c : ℝ)| * e + |(k : ℝ)| * r + r * e : ℝ) ≤ r' := by exact_mod_cast hr
  have e1 : s * t - (c' : ℝ) = c * (t - k) + k * (s - c) + (s - c) * (t - k) := by rw [hc]; push_cast; ring
  simp only [e1]
  refine le_trans (abs_add_three _ _ _) (le_trans ?_ hr)
  rw [abs_mul, abs_mul, abs_mul]
  have := mul_le_mul_of_nonneg_left h2 (abs_nonneg (c : ℝ))
  have := mul_le_mul_of_nonneg_left h1 (abs_nonneg (k : ℝ))
  have := mul_le_mul h1 h2 (abs_nonneg _) ((abs_nonneg _).trans h1)
  linarith

private theorem subT_near (hk : V.kind ≠ .exact) {c r k c' : ℚ} {t : Fl .double} (hx : Near c r x) (ht : val t = some ((k : ℝ) : EReal)) (hc : c' = c - k)
    (hA : Rep .double (c' - r)) (hB : Rep .double (c' + r)) : Post True (subIT V.pp x t) (Near c' r) := by
  obtain ⟨nx, hx⟩ := hx
  obtain ⟨_, _, ix⟩ := has_of_nonempty nx
  have hS := nx.image2 (singleton_nonempty (k : ℝ)) (f := (· - ·))
  refine (subIT_post ((V.fl_tight hk).dir du_tight).op V.chk ht ix).mono fun z hz => near_of (hz.smallest hS) hS ?_ hA hB
  rintro _ ⟨s, hs, t, rfl, rfl⟩
  have h1 := hx s hs
  have e1 : s - (k : ℝ) - (c' : ℝ) = s - c := by rw [hc]; push_cast; ring
  simp only [e1]; exact h1

private theorem addT_near (hk : V.kind ≠ .exact) {c r k c' : ℚ} {t : Fl .double} (hx : Near c r x) (ht : val t = some ((k : ℝ) : EReal)) (hc : c' = c + k)
    (hA : Rep .double (c' - r)) (hB : Rep .double (c' + r)) : Post True (addIT V.pp x t) (Near c' r) := by
  obtain ⟨nx, hx⟩ := hx
  obtain ⟨_, _, ix⟩ := has_of_nonempty nx
  have hS := nx.image2 (singleton_nonempty (k : ℝ)) (f := (· + ·))
  refine (addIT_post ((V.fl_tight hk).dir du_tight).op V.chk ht ix).mono fun z hz => near_of (hz.smallest hS) hS ?_ hA hB
  rintro _ ⟨s, hs, t, rfl, rfl⟩
  have h1 := hx s hs
  have e1 : s + (k : ℝ) - (c' : ℝ) = s - c := by rw [hc]; push_cast; ring
  simp only [e1]; exact h1

private theorem mul5_near (hk : V.kind ≠ .exact) {c r c' r' : ℚ} (hx : Near c r x) (hc : c' = 5 * c) (hr : r' = 5 * r)
    (hA : Rep .double (c' - r')) (hB : Rep .double (c' + r')) : Post True (mulTI V.pp (Num.lit 5) x) (Near c' r') := by
  obtain ⟨nx, hx⟩ := hx
  obtain ⟨_, _, ix⟩ := has_of_nonempty nx
  have ht : val (Num.lit 5 : Fl .double) = some (((5 : ℤ) : ℝ) : EReal) := NumLaws.lit 5 (by decide)
  have hS := (singleton_nonempty ((5 : ℤ) : ℝ)).image2 nx (f := (· * ·))
  refine (mulTI_post ((V.fl_tight hk).dir du_tight).op V.chk ht ix).mono fun z hz => near_of (hz.smallest hS) hS ?_ hA hB
  rintro _ ⟨t, rfl, s, hs, rfl⟩
  have h1 := hx s hs
  have e1 : ((5 : ℤ) : ℝ) * s - (c' : ℝ) = 5 * (s - c) := by rw [hc]; push_cast; ring
  simp only [e1]
  rw [abs_mul, hr]; push_cast
  rw [abs_of_pos (by norm_num : (0 : ℝ) < 5)]
  linarith

/-- The derivative in the neighbourhood of the zero `k`. -/
private theorem quinticD_near (hk : V.kind ≠ .exact) {c40 c105 c100 c24 : Fl .double} (h40 : val c40 = some ((40 : ℝ) : EReal))
    (h105 : val c105 = some ((105 : ℝ) : EReal)) (h100 : val c100 = some ((100 : ℝ) : EReal)) (h24 : val c24 = some ((24 : ℝ) : EReal))
    {k : ℤ} (h0 : 0 ≤ k) (h4 : k ≤ 4) (hx : Near k (1 / 256) x) :
    V.ReturnsInside (quinticD V.P.unprot c40 c105 c100 c24 x) fun y => (0 : ℝ) ∉ γ y := by
  refine tri_inside (Tri.of_sim (quinticD_sim (V.simU hk) c40 c105 c100 c24 x) (Post.toE ?_))
  have h40 : val c40 = some (((40 : ℚ) : ℝ) : EReal) := by push_cast; exact h40
  have h105 : val c105 = some (((105 : ℚ) : ℝ) : EReal) := by push_cast; exact h105
  have h100 : val c100 = some (((100 : ℚ) : ℝ) : EReal) := by push_cast; exact h100
  have h24 : val c24 = some (((24 : ℚ) : ℝ) : EReal) := by push_cast; exact h24
  have key : ∀ c1 r1 c2 r2 c3 r3 c4 r4 : ℚ, c1 = 5 * k → r1 = 5 / 256 → c2 = (c1 - 40) * k → |c1 - 40| * (1 / 256) + |(k : ℚ)| * r1 + r1 * (1 / 256) ≤ r2 →
      c3 = (c2 + 105) * k → |c2 + 105| * (1 / 256) + |(k : ℚ)| * r2 + r2 * (1 / 256) ≤ r3 →
      c4 = (c3 - 100) * k → |c3 - 100| * (1 / 256) + |(k : ℚ)| * r3 + r3 * (1 / 256) ≤ r4 → r4 < |c4 + 24| →
      (∀ q ∈ [c1 - r1, c1 + r1, c1 - 40 - r1, c1 - 40 + r1, c2 - r2, c2 + r2, c2 + 105 - r2, c2 + 105 + r2, c3 - r3, c3 + r3,
        c3 - 100 - r3, c3 - 100 + r3, c4 - r4, c4 + r4, c4 + 24 - r4, c4 + 24 + r4], (q * 2 ^ 45).den = 1 ∧ |(q * 2 ^ 45).num| < 2 ^ 53) →
      Post True (quinticD V.pp c40 c105 c100 c24 x) fun y => (0 : ℝ) ∉ γ y := by
    intro c1 r1 c2 r2 c3 r3 c4 r4 e1 e1' e2 e2' e3 e3' e4 e4' e5 hrep
    have R : ∀ q ∈ [c1 - r1, c1 + r1, c1 - 40 - r1, c1 - 40 + r1, c2 - r2, c2 + r2, c2 + 105 - r2, c2 + 105 + r2, c3 - r3, c3 + r3,
        c3 - 100 - r3, c3 - 100 + r3, c4 - r4, c4 + r4, c4 + 24 - r4, c4 + 24 + r4], Rep .double q := fun q hq => rep32 (hrep q hq).1 (hrep q hq).2
    unfold quinticD
    refine (mul5_near V hk hx e1 (r' := r1) (by rw [e1']; norm_num) (R _ (by simp)) (R _ (by simp))).bind fun y hy => ?_
    refine (subT_near V hk hy h40 rfl (R _ (by simp)) (R _ (by simp))).bind fun y hy => ?_
    refine (mul_near V hk hy hx e2 e2' (R _ (by simp)) (R _ (by simp))).bind fun y hy => ?_
    refine (addT_near V hk hy h105 rfl (R _ (by simp)) (R _ (by simp))).bind fun y hy => ?_
    refine (mul_near V hk hy hx e3 e3' (R _ (by simp)) (R _ (by simp))).bind fun y hy => ?_
    refine (subT_near V hk hy h100 rfl (R _ (by simp)) (R _ (by simp))).bind fun y hy => ?_
    refine (mul_near V hk hy hx e4 e4' (R _ (by simp)) (R _ (by simp))).bind fun y hy => ?_
    refine (addT_near V hk hy h24 rfl (R _ (by simp)) (R _ (by simp))).mono fun y hy h0 => ?_
    have := hy.2 0 h0
    rw [zero_sub, abs_neg] at this
    have e5 : (r4 : ℝ) < |((c4 + 24 : ℚ) : ℝ)| := by exact_mod_cast e5
    exact absurd this (not_le.2 e5)
  interval_cases k
  · exact key 0 (5 / 256) 0 (1 / 4) 0 (1 / 2) 0 (1 / 2) (by norm_num) rfl (by norm_num) (by norm_num [abs_of_neg]) (by norm_num) (by norm_num) (by norm_num)
      (by norm_num) (by norm_num) (by decide +kernel)
  · exact key 5 (5 / 256) (-35) (1 / 4) 70 (3 / 4) (-30) 1 (by norm_num) rfl (by norm_num) (by norm_num) (by norm_num) (by norm_num) (by norm_num)
      (by norm_num) (by norm_num) (by decide +kernel)
  · exact key 10 (5 / 256) (-60) (1 / 4) 90 (3 / 4) (-20) 2 (by norm_num) rfl (by norm_num) (by norm_num) (by norm_num) (by norm_num) (by norm_num)
      (by norm_num) (by norm_num) (by decide +kernel)
  · exact key 15 (5 / 256) (-75) (1 / 4) 90 1 (-30) 4 (by norm_num) rfl (by norm_num) (by norm_num) (by norm_num) (by norm_num) (by norm_num)
      (by norm_num) (by norm_num) (by decide +kernel)
  · exact key 20 (5 / 256) (-80) (1 / 4) 100 (3 / 2) 0 8 (by norm_num) rfl (by norm_num) (by norm_num) (by norm_num) (by norm_num) (by norm_num)
      (by norm_num) (by norm_num) (by decide +kernel)

/-- The polynomial of the program and its derivative are never both around zero on narrow intervals. -/
theorem quintic_separates (hk : V.kind ≠ .exact) {c40 c105 c100 c24 mwT alT : Fl .double} (h40 : val c40 = some ((40 : ℝ) : EReal))
    (h105 : val c105 = some ((105 : ℝ) : EReal)) (h100 : val c100 = some ((100 : ℝ) : EReal)) (h24 : val c24 = some ((24 : ℝ) : EReal))
    {a b d : ℝ} (ha : -1 ≤ a) (hb : b ≤ 6) (hd : d ≤ 1 / 512) : Separates V (quinticN V c40 c105 c100 c24 mwT alT) a b d := by
  intro l u h1 h2 h3 h4
  by_cases hn : ∃ k : ℤ, 0 ≤ k ∧ k ≤ 4 ∧ (k - 1 / 256 : ℝ) ≤ l ∧ u ≤ k + 1 / 256
  · obtain ⟨k, g1, g2, g3, g4⟩ := hn
    refine .inr fun z hl hu => quinticD_near V hk h40 h105 h100 h24 g1 g2 ?_
    have e := box_gamma hl hu h2
    refine ⟨by rw [e]; exact ⟨l, le_rfl, h2⟩, ?_⟩
    rw [e]
    intro s hs
    push_cast
    rw [abs_le]
    exact ⟨by linarith [hs.1], by linarith [hs.2]⟩
  · refine .inl fun z hl hu => quintic_away V hk hl hu (by linarith) h2 (by linarith) fun k g1 g2 => ?_
    by_contra hc
    rw [not_or, not_le, not_le] at hc
    exact hn ⟨k, g1, g2, by linarith [hc.1], by linarith [hc.2]⟩

variable {c40 c105 c100 c24 mwT alT : Fl .double} {xs : Itv (Fl .double)} {a b mw al : ℝ}

private theorem half_max : (64 : ℝ) ≤ (maxFin .double : ℝ) / 2 := by
  have : (128 : ℚ) ≤ maxFin .double := by decide +kernel
  have : (128 : ℝ) ≤ (maxFin .double : ℝ) := by exact_mod_cast this
  linarith

private theorem resolves_of (ha : -1 ≤ a) (hab : a ≤ b) (hb : b ≤ 6) (hw : 1 / 2 ^ 48 < mw) : Resolves .double a b mw := by
  refine ⟨-50, by decide, ?_, ?_, by norm_num at hw ⊢; exact hw⟩
  · change |a| ≤ (2 : ℝ) ^ ((-50 : ℤ) + (53 : ℕ)); rw [abs_le]; norm_num; exact ⟨by linarith, by linarith⟩
  · change |b| ≤ (2 : ℝ) ^ ((-50 : ℤ) + (53 : ℕ)); rw [abs_le]; norm_num; exact ⟨by linarith, by linarith⟩

/-- The first half of `main` ends and finds the zeros: for start intervals in `[-1, 6]`, widths between `2 ^ -48` and
`2 ^ -9`, and `alpha` up to 3/4; the program takes `[-1, 5.1]`, `1e-10` and `0.75`. -/
theorem C48_newton1_program (hk : V.kind ≠ .exact) (h40 : val c40 = some ((40 : ℝ) : EReal))
    (h105 : val c105 = some ((105 : ℝ) : EReal)) (h100 : val c100 = some ((100 : ℝ) : EReal)) (h24 : val c24 = some ((24 : ℝ) : EReal))
    (hw : val mwT = some (mw : EReal)) (hw1 : 1 / 2 ^ 48 < mw) (hw2 : mw ≤ 1 / 512) (hα : val alT = some (al : EReal)) (hα' : |al| ≤ 3 / 4)
    (ha : val xs.lower = some (a : EReal)) (hb : val xs.upper = some (b : EReal)) (hab : a ≤ b) (ha' : -1 ≤ a) (hb' : b ≤ 6) :
    ∃ n₀, ∀ n ≥ n₀, V.Returns (V.P.rnd.scope (newton1 V.P.unprot (quinticN V c40 c105 c100 c24 mwT alT) n [xs] []))
      (Isolates quinticF (Icc a b) a b mw) := by
  have hm := half_max
  obtain ⟨n₀, h⟩ := C48_newton1_ends V (F := quinticF) (F' := quinticF') hk (quintic_ok V (alT := alT) hk h40 h105 h100 h24 hw) hα hα' ha hb hab
    (abs_le.2 ⟨by linarith, by linarith⟩) (abs_le.2 ⟨by linarith, by linarith⟩) (resolves_of ha' hab hb' hw1)
    (quintic_separates V hk h40 h105 h100 h24 ha' hb' hw2)
  refine ⟨n₀, fun n hn s hs => ?_⟩
  obtain ⟨h1, h2⟩ := h n hn s hs
  cases ho : (V.P.rnd.scope (newton1 V.P.unprot (quinticN V c40 c105 c100 c24 mwT alT) n [xs] []) s).1 with
  | ok R => rw [ho] at h2; exact ⟨R, rfl, h1, h2⟩
  | error e =>
    rw [ho] at h2
    obtain ⟨-, -, t, -, ⟨w, hw⟩, h0⟩ := h2
    obtain ⟨q, -, rfl⟩ := Rep.of_val hw
    exact absurd h0 (quinticF'_ne q)

/-- The second half of `main`. -/
theorem C48_newton2_program (hk : V.kind ≠ .exact) (hE : V.checks.forbidsEmpty = false) (h40 : val c40 = some ((40 : ℝ) : EReal))
    (h105 : val c105 = some ((105 : ℝ) : EReal)) (h100 : val c100 = some ((100 : ℝ) : EReal)) (h24 : val c24 = some ((24 : ℝ) : EReal))
    (hw : val mwT = some (mw : EReal)) (hw1 : 1 / 2 ^ 48 < mw) (hα : val alT = some (al : EReal)) (hα' : |al| ≤ 3 / 4)
    (ha : val xs.lower = some (a : EReal)) (hb : val xs.upper = some (b : EReal)) (hab : a ≤ b) (ha' : -1 ≤ a) (hb' : b ≤ 6) :
    ∃ n₀, ∀ n ≥ n₀, V.Returns (V.P.rnd.scope (newton2 V.P.unprot (quinticN V c40 c105 c100 c24 mwT alT) n [xs] []))
      (Isolates quinticF (Icc a b) a b mw) := by
  have hm := half_max
  exact C48_newton2_ends V (F := quinticF) (F' := quinticF') hk hE (quintic_ok V (alT := alT) hk h40 h105 h100 h24 hw) hα hα' ha hb hab
    (abs_le.2 ⟨by linarith, by linarith⟩) (abs_le.2 ⟨by linarith, by linarith⟩) (resolves_of ha' hab hb' hw1)
end

/-! ## Runs without end -/

private abbrev cst (q : ℚ) : Fl Fmt.double := rnd _ .near false q

private theorem cst_val (q : ℚ) (m e : ℤ) (h : |m| < 2 ^ 53 ∧ -1074 ≤ e ∧ e ≤ 971) (hq : q = m * (2 : ℚ) ^ e) :
    val (cst q) = some ((q : ℝ) : EReal) := rnd_exact _ _ ⟨m, e, h.1, h.2.1, h.2.2, hq⟩

private theorem tri_val {W α : Type} {J : Inv W} {E : Err → Prop} {a : M W α} {r : Res α} {v : α} (h : Sim J a r) (hv : r = .ok v) : Tri J E a (· = v) :=
  Tri.of_sim h (by rw [hv]; rfl)

private theorem postE_ok {α : Type} {E : Err → Prop} {r : Res α} {v : α} (h : r = .ok v) : PostE E r (· = v) := by rw [h]; rfl

/-- Two neighbouring numbers around 2 ^ 34; their distance is 2 ^ -18. -/
private abbrev farX : Itv (Fl .double) := ⟨cst (2 ^ 34), cst (2 ^ 34 + 1 / 2 ^ 18)⟩
private abbrev farP : Itv (Fl .double) := ⟨cst (2 ^ 34), cst (2 ^ 34)⟩

/-- `x - 2 ^ 34` -/
noncomputable def farF (x : Itv (Fl .double)) : M dbl.ctl.W (Itv (Fl .double)) := subIT dbl.P x (cst (2 ^ 34))

private theorem far_tri (n : ℕ) : ∀ (l res : List (Itv (Fl .double))), farX ∈ l → (∀ z ∈ l, z = farX ∨ z = farP) →
    Tri (outer dbl.laws) (fun e => e = .fuel) (findZeros1 dbl.P farF (cst (1 / 10 ^ 6)) n l res) fun _ => False := by
  obtain ⟨_, hS⟩ := dbl.sim (Env.fl_directed dbl (by decide)).kindOk
  have hC : dbl.P.chk = dbl.C := hS.chk
  induction n with
  | zero =>
    intro l res h h'
    cases l with
    | nil => cases h
    | cons x l => unfold findZeros1; exact Tri.err rfl
  | succ n ih =>
    intro l res h h'
    cases l with
    | nil => cases h
    | cons x l =>
      unfold findZeros1
      rw [hC]
      rcases h' x (by simp) with rfl | rfl
      · refine (tri_val (v := ⟨.zero true, cst (1 / 2 ^ 18)⟩) (subIT_sim hS farX (cst (2 ^ 34))) (by decide +kernel)).bind fun y hy => ?_
        subst hy
        refine (Tri.lift (r := zeroIn _ _) (Q := (· = true)) (postE_ok (by decide +kernel))).bind fun c hc => ?_
        subst hc
        refine (tri_val (v := cst (1 / 2 ^ 18)) (width_sim hS farX) (by decide +kernel)).bind fun w hw => ?_
        subst hw
        refine Tri.ite (fun h => absurd h (by decide +kernel)) fun _ => ?_
        refine (tri_val (v := (farP, farX)) (bisect_sim hS farX) (by decide +kernel)).bind fun p hp => ?_
        subst hp
        refine ih _ _ (by simp) fun z hz => ?_
        simp only [List.mem_append, List.mem_cons, List.not_mem_nil, or_false] at hz
        rcases hz with hz | hz | hz
        · exact h' z (by simp [hz])
        · exact .inr hz
        · exact .inl hz
      · have hl : farX ∈ l := by
          rcases List.mem_cons.1 h with h | h
          · exact absurd (congrArg Itv.upper h) (by decide +kernel)
          · exact h
        refine (tri_val (v := ⟨.zero true, .zero false⟩) (subIT_sim hS farP (cst (2 ^ 34))) (by decide +kernel)).bind fun y hy => ?_
        subst hy
        refine (Tri.lift (r := zeroIn _ _) (Q := (· = true)) (postE_ok (by decide +kernel))).bind fun c hc => ?_
        subst hc
        refine (tri_val (v := .zero false) (width_sim hS farP) (by decide +kernel)).bind fun w hw => ?_
        subst hw
        refine Tri.ite (fun _ => ih _ _ hl fun z hz => h' z (by simp [hz])) fun h => absurd (by decide +kernel) h

/-- `find_zeros` with the width 1e-6 of the program runs forever on `x - 2 ^ 34` and the search range
`[2 ^ 34, 2 ^ 34 + 2 ^ -18]`. -/
theorem C48_find_zeros1_diverges (n : ℕ) (s : dbl.State) (hs : dbl.Valid s) :
    Notices1 dbl farF {2 ^ 34} ∧ (findZeros1 dbl.P farF (cst (1 / 10 ^ 6)) n [farX] [] s).1 = .error .fuel := by
  constructor
  · intro x hx
    have hV := Env.fl_directed dbl (by decide)
    refine dbl.run hV (fun _ h => subIT_sim h x _) ((subIT_all dbl hV hx (fun t h => h) (q := 2 ^ 34) ?_).mono fun z hz => ?_)
    · have := cst_val (2 ^ 34) 1 34 (by decide) (by norm_num); push_cast at this; exact this
    · refine ⟨.inl ?_, ?_⟩
      · obtain ⟨t, ht⟩ := hx; exact ⟨_, hz t ht⟩
      · rintro ⟨t, ht, h⟩
        have := hz t ht
        rwa [mem_singleton_iff.1 h, sub_self] at this
  · have := (far_tri n [farX] [] (by simp) (by simp) s hs).2
    cases ho : (findZeros1 dbl.P farF (cst (1 / 10 ^ 6)) n [farX] [] s).1 with
    | ok R => rw [ho] at this; exact this.1.elim
    | error e => rw [ho] at this; rw [this]

/-- `(x - x) + (x - m) * (x - m') + d`, a function that is everywhere positive. -/
def stuckF {m : Type → Type} [Eff m] {T : Type} [Num T] (P : Policies m T) (l u d : T) (x : Itv T) : m (Itv T) := do
  let a ← subIT P x l
  let b ← subIT P x u
  let y ← mulII P a b
  let y ← addIT P y d
  let s ← subII P x x
  addII P s y

/-- `(x - m) + (x - m')`, its derivative. -/
def stuckD {m : Type → Type} [Eff m] {T : Type} [Num T] (P : Policies m T) (l u : T) (x : Itv T) : m (Itv T) := do
  let a ← subIT P x l
  let b ← subIT P x u
  addII P a b

private theorem stuckF_sim {W T : Type} [Num T] {I J : Inv W} {P : Policies (M W) T} {B : Arith Res T} {C : Checking T} (h : PSim I J P B C)
    (l u d : T) (x : Itv T) : Sim I (stuckF P l u d x) (stuckF (purePolicies B C) l u d x) :=
  (subIT_sim h _ _).bind fun _ => (subIT_sim h _ _).bind fun _ => (mulII_sim h _ _).bind fun _ => (addIT_sim h _ _).bind fun _ =>
    (subII_sim h _ _).bind fun _ => addII_sim h _ _

private theorem stuckD_sim {W T : Type} [Num T] {I J : Inv W} {P : Policies (M W) T} {B : Arith Res T} {C : Checking T} (h : PSim I J P B C)
    (l u : T) (x : Itv T) : Sim I (stuckD P l u x) (stuckD (purePolicies B C) l u x) :=
  (subIT_sim h _ _).bind fun _ => (subIT_sim h _ _).bind fun _ => addII_sim h _ _

/-- The neighbours `1 + 2 ^ -52` and `1 + 2 ^ -51`, and the offset `2 ^ -60`. -/
private abbrev sL : Fl .double := cst (1 + 1 / 2 ^ 52)
private abbrev sU : Fl .double := cst (1 + 1 / 2 ^ 51)
private abbrev sD : Fl .double := cst (1 / 2 ^ 60)
private abbrev sX : Itv (Fl .double) := ⟨sL, sU⟩

noncomputable def stuckN : Newton (M dbl.ctl.W) (Fl .double) :=
  ⟨stuckF dbl.P.unprot sL sU sD, stuckD dbl.P.unprot sL sU, cst (1 / 10 ^ 10), cst (3 / 4)⟩

private def val? {α : Type} (d : α) : Res α → α
  | .ok v => v
  | .error _ => d

private abbrev nanI : Itv (Fl .double) := ⟨.nan, .nan⟩

private noncomputable abbrev sVf : Itv (Fl .double) := val? nanI (stuckF dbl.pp sL sU sD ⟨sU, sU⟩)
private noncomputable abbrev sVd : Itv (Fl .double) := val? nanI (stuckD dbl.pp sL sU sX)
private noncomputable abbrev sQ1 : Itv (Fl .double) := (val? (nanI, false) (divisionPart1 dbl.pp sVf sVd)).1
private noncomputable abbrev sQ2 : Itv (Fl .double) := val? nanI (divisionPart2 dbl.pp sVf sVd true)
private noncomputable abbrev sX1 : Itv (Fl .double) := val? nanI (subTI dbl.pp sU sQ1)
private noncomputable abbrev sX2 : Itv (Fl .double) := val? nanI (subTI dbl.pp sU sQ2)

section
variable {E : Err → Prop}

private theorem stuck_step : Tri (inner dbl.laws dbl.kind) E (newtonStep1 dbl.P.unprot stuckN sX) (· = (sX1, some sX2)) := by
  have hS := dbl.simU (by decide)
  have hC : dbl.P.unprot.chk = dbl.C := hS.chk
  unfold newtonStep1
  rw [hC]
  refine (tri_val (v := sU) (median_sim hS sX) (by decide +kernel)).bind fun y hy => ?_
  subst hy
  refine (Tri.lift (r := ctorT _ _) (Q := (· = ⟨sU, sU⟩)) (postE_ok (by decide +kernel))).bind fun c hc => ?_
  subst hc
  refine (tri_val (v := sVf) (stuckF_sim hS sL sU sD _) (by decide +kernel)).bind fun vf hvf => ?_
  refine (tri_val (v := sVd) (stuckD_sim hS sL sU _) (by decide +kernel)).bind fun vd hvd => ?_
  subst hvf
  subst hvd
  refine (Tri.lift (r := zeroIn _ _) (Q := (· = false)) (postE_ok (by decide +kernel))).bind fun c hc => ?_
  subst hc
  refine (Tri.lift (r := zeroIn _ _) (Q := (· = true)) (postE_ok (by decide +kernel))).bind fun c hc => ?_
  subst hc
  refine Tri.ite (fun h => by cases h) fun _ => ?_
  refine (tri_val (v := (sQ1, true)) (divisionPart1_sim hS _ _) (by decide +kernel)).bind fun q hq => ?_
  subst hq
  refine (tri_val (v := sX1) (subTI_sim hS _ _) (by decide +kernel)).bind fun q hq => ?_
  subst hq
  refine Tri.ite (fun _ => ?_) fun h => absurd rfl h
  refine (tri_val (v := sQ2) (divisionPart2_sim hS _ _ _) (by decide +kernel)).bind fun q hq => ?_
  subst hq
  refine (tri_val (v := sX2) (subTI_sim hS _ _) (by decide +kernel)).bind fun q hq => ?_
  subst hq
  exact Tri.pure rfl

private theorem stuck_keep : Tri (inner dbl.laws dbl.kind) E (newtonKeep1 dbl.P.unprot stuckN sX2 none) (· = some (sX2, none)) := by
  have hS := dbl.simU (by decide)
  have hC : dbl.P.unprot.chk = dbl.C := hS.chk
  unfold newtonKeep1
  rw [hC]
  simp only
  refine (tri_val (v := val? nanI (stuckF dbl.pp sL sU sD sX2)) (stuckF_sim hS sL sU sD _) (by decide +kernel)).bind fun y hy => ?_
  subst hy
  refine (Tri.lift (r := zeroIn _ _) (Q := (· = true)) (postE_ok (by decide +kernel))).bind fun c hc => ?_
  subst hc
  exact Tri.ite (fun _ => Tri.pure rfl) fun h => absurd rfl h

private theorem stuck_push (L res : List (Itv (Fl .double))) :
    Tri (inner dbl.laws dbl.kind) E (newtonPush1 dbl.P.unprot stuckN L res sX sX2 none) (· = (sX :: L, res)) := by
  have hS := dbl.simU (by decide)
  have hC : dbl.P.unprot.chk = dbl.C := hS.chk
  unfold newtonPush1
  rw [hC]
  refine (tri_val (v := .inf false) (width_sim hS _) (by decide +kernel)).bind fun w hw => ?_
  subst hw
  refine Tri.bind (Q := (· = (sX :: L, res, some ⟨sU, sU⟩))) ?_ fun p hp => ?_
  · refine Tri.ite (fun h => absurd h (by decide +kernel)) fun _ => ?_
    refine (tri_val (v := cst (1 / 2 ^ 52)) (width_sim hS _) (by decide +kernel)).bind fun w hw => ?_
    subst hw
    refine (tri_cur (V := dbl) (J := inner dbl.laws dbl.kind) (E := E) (g := fun r => Num.mul r (cst (3 / 4)) (cst (1 / 2 ^ 52))) (Q := (· = cst (3 / 2 ^ 54)))
      fun r => ⟨cst (3 / 2 ^ 54), by cases r <;> decide +kernel, rfl⟩).bind fun aw ha => ?_
    subst ha
    refine Tri.ite (fun _ => ?_) fun h => absurd (by decide +kernel) h
    refine (tri_val (v := (sX, ⟨sU, sU⟩)) (bisect_sim hS _) (by decide +kernel)).bind fun w hw => ?_
    subst hw
    refine (tri_val (v := val? nanI (stuckF dbl.pp sL sU sD sX)) (stuckF_sim hS sL sU sD _) (by decide +kernel)).bind fun y hy => ?_
    subst hy
    refine (Tri.lift (r := zeroIn _ _) (Q := (· = true)) (postE_ok (by decide +kernel))).bind fun c hc => ?_
    subst hc
    exact Tri.pure rfl
  · subst hp
    refine (tri_val (v := sVf) (stuckF_sim hS sL sU sD _) (by decide +kernel)).bind fun vf hvf => ?_
    subst hvf
    refine (Tri.lift (r := zeroIn _ _) (Q := (· = false)) (postE_ok (by decide +kernel))).bind fun c hc => ?_
    subst hc
    exact Tri.ite (fun h => by cases h) fun _ => Tri.pure rfl

private theorem stuck_turn (L res : List (Itv (Fl .double))) :
    Tri (inner dbl.laws dbl.kind) E (newtonTurn1 dbl.P.unprot stuckN L res sX) (· = (sX :: L, res)) := by
  have hC : dbl.P.unprot.chk = dbl.C := (dbl.simU (by decide)).chk
  unfold newtonTurn1
  refine stuck_step.bind fun p hp => ?_
  subst hp
  refine (Tri.lift (r := newtonCut1 _ _ _ _) (Q := (· = some (sX2, none))) (postE_ok ?_)).bind fun c hc => ?_
  · unfold newtonCut1; rw [hC]; decide +kernel
  subst hc
  refine stuck_keep.bind fun c hc => ?_
  subst hc
  exact stuck_push L res
end

private theorem stuck_tri (n : ℕ) : ∀ res : List (Itv (Fl .double)),
    Tri (inner dbl.laws dbl.kind) (fun e => e = .fuel) (newton1 dbl.P.unprot stuckN n [sX] res) fun _ => False := by
  induction n with
  | zero => intro res; unfold newton1; exact Tri.err rfl
  | succ n ih =>
    intro res
    unfold newton1
    refine (stuck_turn [] res).bind fun p hp => ?_
    subst hp
    exact ih res

noncomputable def stuckR (t : ℝ) : ℝ := (t - (1 + 1 / 2 ^ 52)) * (t - (1 + 1 / 2 ^ 51)) + 1 / 2 ^ 60
noncomputable def stuckR' (t : ℝ) : ℝ := (t - (1 + 1 / 2 ^ 52)) + (t - (1 + 1 / 2 ^ 51))

private theorem sL_val : val sL = some (((1 + 1 / 2 ^ 52 : ℝ)) : EReal) := by
  have := cst_val (1 + 1 / 2 ^ 52) (2 ^ 52 + 1) (-52) (by decide) (by norm_num); push_cast at this; exact this
private theorem sU_val : val sU = some (((1 + 1 / 2 ^ 51 : ℝ)) : EReal) := by
  have := cst_val (1 + 1 / 2 ^ 51) (2 ^ 51 + 1) (-51) (by decide) (by norm_num); push_cast at this; exact this
private theorem sD_val : val sD = some (((1 / 2 ^ 60 : ℝ)) : EReal) := by
  have := cst_val (1 / 2 ^ 60) 1 (-60) (by decide) (by norm_num); push_cast at this; exact this

private theorem addII_all {f : Fmt} (V : Env (Fl f)) {x y : Itv (Fl f)} {X : Set ℝ} {G H : ℝ → ℝ} (hV : V.Directed) (hX : X.Nonempty) (hx : ∀ t ∈ X, G t ∈ γ x)
    (hy : ∀ t ∈ X, H t ∈ γ y) : Post True (addII V.pp x y) fun z => ∀ t ∈ X, G t + H t ∈ γ z := by
  obtain ⟨t, ht⟩ := hX
  obtain ⟨_, _, ix⟩ := has_of_mem (hx t ht)
  obtain ⟨_, _, iy⟩ := has_of_mem (hy t ht)
  have hA := hV.dir du_weak
  exact (addII_post hA.op V.chk ix iy).mono fun z hz t ht => hz.encl hA.D_le hA.U_ge ⟨_, hx t ht, _, hy t ht, rfl⟩

private theorem subII_all {f : Fmt} (V : Env (Fl f)) {x y : Itv (Fl f)} {X : Set ℝ} {G H : ℝ → ℝ} (hV : V.Directed) (hX : X.Nonempty) (hx : ∀ t ∈ X, G t ∈ γ x)
    (hy : ∀ t ∈ X, H t ∈ γ y) : Post True (subII V.pp x y) fun z => ∀ t ∈ X, G t - H t ∈ γ z := by
  obtain ⟨t, ht⟩ := hX
  obtain ⟨_, _, ix⟩ := has_of_mem (hx t ht)
  obtain ⟨_, _, iy⟩ := has_of_mem (hy t ht)
  have hA := hV.dir du_weak
  exact (subII_post hA.op V.chk ix iy).mono fun z hz t ht => hz.encl hA.D_le hA.U_ge ⟨_, hx t ht, _, hy t ht, rfl⟩

private theorem stuckF_encl : Encloses dbl stuckN.f stuckR := by
  intro x hx
  have hV := Env.fl_directed dbl (by decide)
  refine tri_inside (Tri.of_sim (stuckF_sim (dbl.simU (by decide)) sL sU sD x) (Post.toE ?_))
  have hid : ∀ t ∈ γ x, t ∈ γ x := fun _ h => h
  unfold stuckF
  refine (subIT_all dbl hV hx hid sL_val).bind fun a h1 => ?_
  refine (subIT_all dbl hV hx hid sU_val).bind fun b h2 => ?_
  refine (mulII_all dbl hV hx h1 h2).bind fun y hy => ?_
  refine (addIT_all dbl hV hx hy sD_val).bind fun y hy => ?_
  refine (subII_all dbl hV hx hid hid).bind fun s hs => ?_
  refine (addII_all dbl hV hx hs hy).mono fun y hy t ht => ?_
  have := hy t ht
  rwa [sub_self, zero_add] at this

private theorem stuckD_encl : Encloses dbl stuckN.fd stuckR' := by
  intro x hx
  have hV := Env.fl_directed dbl (by decide)
  refine tri_inside (Tri.of_sim (stuckD_sim (dbl.simU (by decide)) sL sU x) (Post.toE ?_))
  have hid : ∀ t ∈ γ x, t ∈ γ x := fun _ h => h
  unfold stuckD
  refine (subIT_all dbl hV hx hid sL_val).bind fun a h1 => ?_
  refine (subIT_all dbl hV hx hid sU_val).bind fun b h2 => ?_
  exact addII_all dbl hV hx h1 h2

private theorem stuck_pos (t : ℝ) : 0 < stuckR t := by
  have e : stuckR t = (t - (1 + 3 / 2 ^ 53)) ^ 2 + (1 / 2 ^ 60 - 1 / 2 ^ 106) := by unfold stuckR; ring
  rw [e]
  have := sq_nonneg (t - (1 + 3 / 2 ^ 53))
  have : (0 : ℝ) < 1 / 2 ^ 60 - 1 / 2 ^ 106 := by norm_num
  linarith

private theorem stuck_deriv (t : ℝ) : HasDerivAt stuckR (stuckR' t) t := by
  have h : ∀ k : ℝ, HasDerivAt (fun t : ℝ => t - k) 1 t := fun k => (hasDerivAt_id t).sub_const k
  have := ((h (1 + 1 / 2 ^ 52)).mul (h (1 + 1 / 2 ^ 51))).add_const (1 / 2 ^ 60)
  have e : stuckR' t = 1 * (t - (1 + 1 / 2 ^ 51)) + (t - (1 + 1 / 2 ^ 52)) * 1 := by unfold stuckR'; ring
  rw [e]
  exact this

/-- The first method of newton-raphson.cpp, with the constants of the program, runs forever on a function without
zeros and a search range of two neighbouring numbers, narrower than the width asked for. -/
theorem C48_newton1_diverges :
    NewtonOk dbl stuckN stuckR stuckR' (1 + 1 / 2 ^ 52) (1 + 1 / 2 ^ 51) ((7737125245533627 / 2 ^ 86 : ℚ) : ℝ) ∧
    stuckN.alpha = rnd _ .near false (3 / 4 : ℚ) ∧ (∀ t, 0 < stuckR t) ∧
    ∀ (n : ℕ) (s : dbl.State), dbl.Valid s → (dbl.P.rnd.scope (newton1 dbl.P.unprot stuckN n [⟨sL, sU⟩] []) s).1 = .error .fuel := by
  refine ⟨⟨stuckF_encl, stuckD_encl, fun t _ => stuck_deriv t, ?_⟩, rfl, stuck_pos, fun n s hs => ?_⟩
  · have h : stuckN.maxWidth = cst (7737125245533627 / 2 ^ 86) := by
      change cst (1 / 10 ^ 10) = _
      decide +kernel
    rw [h]
    exact cst_val (7737125245533627 / 2 ^ 86) 7737125245533627 (-86) (by decide) (by norm_num)
  · have := (tri_scope (by decide) (stuck_tri n []) s hs).2
    cases ho : (dbl.P.rnd.scope (newton1 dbl.P.unprot stuckN n [⟨sL, sU⟩] []) s).1 with
    | ok R => rw [ho] at this; exact this.1.elim
    | error e => rw [ho] at this; rw [this]

/-! ## Examples -/

/-- 1e-6 on the range of the program. -/
example := C48_find_zeros1_ends dbl (by decide) (notices_id dbl) (eps := cst (4722366482869645 / 2 ^ 72)) (xs := ⟨cst (-11), cst 10⟩)
  (cst_val _ 4722366482869645 (-72) (by decide) (by norm_num)) (cst_val (-11) (-11) 0 (by decide) (by norm_num)) (cst_val 10 10 0 (by decide) (by norm_num))
  (by norm_num) (le_trans (by norm_num [abs_le]) half_max) (le_trans (by norm_num [abs_le]) half_max)
  ⟨-49, by decide, by norm_num [abs_le, Fmt.double], by norm_num [abs_le, Fmt.double], by norm_num⟩

/-- 5e-3 on the range of the program. -/
example := C48_find_zeros2_ends dbl (by decide) (notices_fst dbl) (eps := cst (5764607523034235 / 2 ^ 60)) (xs := ⟨cst (-20), cst 20⟩)
  (ys := ⟨cst (-20), cst 20⟩)
  (cst_val _ 5764607523034235 (-60) (by decide) (by norm_num)) (cst_val (-20) (-20) 0 (by decide) (by norm_num)) (cst_val 20 20 0 (by decide) (by norm_num))
  (by norm_num) (cst_val (-20) (-20) 0 (by decide) (by norm_num)) (cst_val 20 20 0 (by decide) (by norm_num))
  (by norm_num) (le_trans (by norm_num [abs_le]) half_max) (le_trans (by norm_num [abs_le]) half_max)
  (le_trans (by norm_num [abs_le]) half_max) (le_trans (by norm_num [abs_le]) half_max)
  ⟨-48, by decide, by norm_num [abs_le, Fmt.double], by norm_num [abs_le, Fmt.double], by norm_num⟩
  ⟨-48, by decide, by norm_num [abs_le, Fmt.double], by norm_num [abs_le, Fmt.double], by norm_num⟩

private theorem cst_nat (k : ℕ) (h : k < 2 ^ 53) : val (cst k) = some ((k : ℝ) : EReal) := by
  have := cst_val k k 0 ⟨by rw [abs_of_nonneg (by positivity)]; exact_mod_cast h, by norm_num, by norm_num⟩ (by norm_num)
  push_cast at this; exact this

/-- newton-raphson.cpp with its constants. -/
example := C48_newton1_program dbl (by decide) (cst_nat 40 (by norm_num)) (cst_nat 105 (by norm_num)) (cst_nat 100 (by norm_num))
  (cst_nat 24 (by norm_num)) (mwT := cst (7737125245533627 / 2 ^ 86)) (cst_val _ 7737125245533627 (-86) (by decide) (by norm_num))
  (by norm_num) (by norm_num) (alT := cst (3 / 4)) (cst_val (3 / 4) 3 (-2) (by decide) (by norm_num)) (by norm_num [abs_le])
  (xs := ⟨cst (-1), cst (2871044762448691 / 2 ^ 49)⟩) (cst_val (-1) (-1) 0 (by decide) (by norm_num))
  (cst_val _ 2871044762448691 (-49) (by decide) (by norm_num)) (by norm_num) (by norm_num) (by norm_num)

end BI
