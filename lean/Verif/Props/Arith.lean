import Verif.Proofs.Instances
/-!
# C01–C04, C50: the four operations enclose

`V` ranges over all configurations: platform, rounding kind (`exact`, `std`, `opp`), mathematical library, checking
policy, `NDEBUG`. `V.Returns op Q` says that the call returns normally from every machine state — whatever the rounding
direction in force and the order in which the compiler evaluates arguments —, that the control word is restored and
that the result satisfies `Q`.
-/

namespace BI
open Set

variable {T : Type} [Num T] [Val T] [NumLaws T] (V : Env T) {x y : Itv T} {s t : T} {r q : ℝ}

/-! ## C01 -/

theorem C01_add (hV : V.Directed) (hx : (γ x).Nonempty) (hy : (γ y).Nonempty) :
    V.Returns (addII V.P x y) fun z => ∀ a ∈ γ x, ∀ b ∈ γ y, a + b ∈ γ z := by
  obtain ⟨_, _, hx⟩ := has_of_nonempty hx
  obtain ⟨_, _, hy⟩ := has_of_nonempty hy
  have hA := hV.dir du_weak
  refine V.run hV (fun _ h => addII_sim h x y) ((addII_post hA.op V.chk hx hy).mono fun z hz => ?_)
  exact fun a ha b hb => hz.encl hA.D_le hA.U_ge ⟨a, ha, b, hb, rfl⟩

theorem C01_add_num_left (hV : V.Directed) (ht : val t = some (r : EReal)) (hy : (γ y).Nonempty) :
    V.Returns (addTI V.P t y) fun z => ∀ b ∈ γ y, r + b ∈ γ z := by
  obtain ⟨_, _, hy⟩ := has_of_nonempty hy
  have hA := hV.dir du_weak
  refine V.run hV (fun _ h => addTI_sim h t y) ((addTI_post hA.op V.chk ht hy).mono fun z hz => ?_)
  exact fun b hb => hz.encl hA.D_le hA.U_ge ⟨r, rfl, b, hb, rfl⟩

theorem C01_add_num_right (hV : V.Directed) (hx : (γ x).Nonempty) (ht : val t = some (r : EReal)) :
    V.Returns (addIT V.P x t) fun z => ∀ a ∈ γ x, a + r ∈ γ z := by
  obtain ⟨_, _, hx⟩ := has_of_nonempty hx
  have hA := hV.dir du_weak
  refine V.run hV (fun _ h => addIT_sim h x t) ((addIT_post hA.op V.chk ht hx).mono fun z hz => ?_)
  exact fun a ha => hz.encl hA.D_le hA.U_ge ⟨a, ha, r, rfl, rfl⟩

/-! ## C02 -/

theorem C02_sub (hV : V.Directed) (hx : (γ x).Nonempty) (hy : (γ y).Nonempty) :
    V.Returns (subII V.P x y) fun z => ∀ a ∈ γ x, ∀ b ∈ γ y, a - b ∈ γ z := by
  obtain ⟨_, _, hx⟩ := has_of_nonempty hx
  obtain ⟨_, _, hy⟩ := has_of_nonempty hy
  have hA := hV.dir du_weak
  refine V.run hV (fun _ h => subII_sim h x y) ((subII_post hA.op V.chk hx hy).mono fun z hz => ?_)
  exact fun a ha b hb => hz.encl hA.D_le hA.U_ge ⟨a, ha, b, hb, rfl⟩

theorem C02_sub_num_left (hV : V.Directed) (ht : val t = some (r : EReal)) (hy : (γ y).Nonempty) :
    V.Returns (subTI V.P t y) fun z => ∀ b ∈ γ y, r - b ∈ γ z := by
  obtain ⟨_, _, hy⟩ := has_of_nonempty hy
  have hA := hV.dir du_weak
  refine V.run hV (fun _ h => subTI_sim h t y) ((subTI_post hA.op V.chk ht hy).mono fun z hz => ?_)
  exact fun b hb => hz.encl hA.D_le hA.U_ge ⟨r, rfl, b, hb, rfl⟩

theorem C02_sub_num_right (hV : V.Directed) (hx : (γ x).Nonempty) (ht : val t = some (r : EReal)) :
    V.Returns (subIT V.P x t) fun z => ∀ a ∈ γ x, a - r ∈ γ z := by
  obtain ⟨_, _, hx⟩ := has_of_nonempty hx
  have hA := hV.dir du_weak
  refine V.run hV (fun _ h => subIT_sim h x t) ((subIT_post hA.op V.chk ht hx).mono fun z hz => ?_)
  exact fun a ha => hz.encl hA.D_le hA.U_ge ⟨a, ha, r, rfl, rfl⟩

/-! ## C03 -/

theorem C03_mul (hV : V.Directed) (hx : (γ x).Nonempty) (hy : (γ y).Nonempty) :
    V.Returns (mulII V.P x y) fun z => ∀ a ∈ γ x, ∀ b ∈ γ y, a * b ∈ γ z := by
  obtain ⟨_, _, hx⟩ := has_of_nonempty hx
  obtain ⟨_, _, hy⟩ := has_of_nonempty hy
  have hA := hV.dir du_weak
  refine V.run hV (fun _ h => mulII_sim h x y) ((mulII_post hA.op V.chk hx hy).mono fun z hz => ?_)
  exact fun a ha b hb => hz.encl hA.D_le hA.U_ge ⟨a, ha, b, hb, rfl⟩

theorem C03_mul_num_left (hV : V.Directed) (ht : val t = some (r : EReal)) (hy : (γ y).Nonempty) :
    V.Returns (mulTI V.P t y) fun z => ∀ b ∈ γ y, r * b ∈ γ z := by
  obtain ⟨_, _, hy⟩ := has_of_nonempty hy
  have hA := hV.dir du_weak
  refine V.run hV (fun _ h => mulTI_sim h t y) ((mulTI_post hA.op V.chk ht hy).mono fun z hz => ?_)
  exact fun b hb => hz.encl hA.D_le hA.U_ge ⟨r, rfl, b, hb, rfl⟩

theorem C03_mul_num_right (hV : V.Directed) (hx : (γ x).Nonempty) (ht : val t = some (r : EReal)) :
    V.Returns (mulIT V.P x t) fun z => ∀ a ∈ γ x, a * r ∈ γ z := by
  obtain ⟨_, _, hx⟩ := has_of_nonempty hx
  have hA := hV.dir du_weak
  refine V.run hV (fun _ h => mulIT_sim h x t) ((mulIT_post hA.op V.chk ht hx).mono fun z hz => ?_)
  exact fun a ha => hz.encl hA.D_le hA.U_ge ⟨a, ha, r, rfl, rfl⟩

/-! ## C04 -/

/-- Missing from the full claim: divisors that contain zero and other numbers if the base type has no infinities. The assertion
of checking.hpp stops the program in a debug build (`C57_div`); with `NDEBUG` the claim is false (`C04_violated`). -/
theorem C04_div_partial (hV : V.Directed) (hx : (γ x).Nonempty) (hy : ∃ b ∈ γ y, b ≠ 0) (hi : InfBase T ∨ 0 ∉ γ y) :
    V.Returns (divII V.P x y) fun z => ∀ a ∈ γ x, ∀ b ∈ γ y, b ≠ 0 → a / b ∈ γ z := by
  obtain ⟨b₀, hb₀, h₀⟩ := hy
  obtain ⟨_, _, hx⟩ := has_of_nonempty hx
  obtain ⟨_, _, hy⟩ := has_of_mem hb₀
  have hA := hV.dir du_weak
  have hD := hV.div du_weak
  refine V.run hV (fun _ h => divII_sim h x y) (Q := fun z => ∀ a ∈ γ x, ∀ b ∈ γ y, b ≠ 0 → a / b ∈ γ z) ?_
  rcases hi with hi | hi
  · have hne := fun h => h₀ ((zero_bounds hy).1 h hb₀)
    exact (divII_encl hA hD (V.infLaws hi) V.chk hx hy hne).mono fun z hz a ha b hb h => hz ⟨a, ha, b, hb, h, rfl⟩
  · exact (divII_nz_post hD V.chk hx hy hi).mono fun z hz a ha b hb h =>
      hz.encl hA.D_le hA.U_ge ⟨a, ha, b, hb, h, rfl⟩

/-- With the same restriction as `C04_div_partial`. -/
theorem C04_div_num_left_partial (hV : V.Directed) (ht : val t = some (r : EReal)) (hy : ∃ b ∈ γ y, b ≠ 0)
    (hi : InfBase T ∨ 0 ∉ γ y) : V.Returns (divTI V.P t y) fun z => ∀ b ∈ γ y, b ≠ 0 → r / b ∈ γ z := by
  obtain ⟨b₀, hb₀, h₀⟩ := hy
  obtain ⟨_, _, hy⟩ := has_of_mem hb₀
  have hA := hV.dir du_weak
  have hD := hV.div du_weak
  refine V.run hV (fun _ h => divTI_sim h t y) (Q := fun z => ∀ b ∈ γ y, b ≠ 0 → r / b ∈ γ z) ?_
  rcases hi with hi | hi
  · have hne := fun h => h₀ ((zero_bounds hy).1 h hb₀)
    exact (divTI_post hA.op hD (V.infLaws hi) V.chk ht hy hne).mono fun z hz b hb h =>
      hz.encl hA.D_le hA.U_ge ⟨r, rfl, b, hb, h, rfl⟩
  · exact (divTI_nz_post hD V.chk ht hy hi).mono fun z hz b hb h =>
      hz.encl hA.D_le hA.U_ge ⟨r, rfl, b, hb, h, rfl⟩

theorem C04_div_num_right (hV : V.Directed) (hx : (γ x).Nonempty) (ht : val t = some (r : EReal)) (h0 : r ≠ 0) :
    V.Returns (divIT V.P x t) fun z => ∀ a ∈ γ x, a / r ∈ γ z := by
  obtain ⟨_, _, hx⟩ := has_of_nonempty hx
  have hA := hV.dir du_weak
  refine V.run hV (fun _ h => divIT_sim h x t) ((divIT_post (hV.div du_weak) V.chk hx ht h0).mono fun z hz => ?_)
  exact fun a ha => hz.encl hA.D_le hA.U_ge ⟨a, ha, r, rfl, h0, rfl⟩

/-- Division by an interval reduced to zero. -/
theorem C04_div_zero (hV : V.Directed) (hx : (γ x).Nonempty) (hy : γ y = {0}) : V.YieldsEmpty (divII V.P x y) := by
  obtain ⟨_, _, hx⟩ := has_of_nonempty hx
  obtain ⟨_, _, hy'⟩ := has_of_nonempty (x := y) (by rw [hy]; exact ⟨0, rfl⟩)
  exact V.runEmpty hV (fun _ h => divII_sim h x y) (divII_zero V.chk hx hy' ((zero_bounds hy').2 hy.subset))

theorem C04_div_zero_num_left (hV : V.Directed) (ht : val t = some (r : EReal)) (hy : γ y = {0}) :
    V.YieldsEmpty (divTI V.P t y) := by
  obtain ⟨_, _, hy'⟩ := has_of_nonempty (x := y) (by rw [hy]; exact ⟨0, rfl⟩)
  exact V.runEmpty hV (fun _ h => divTI_sim h t y) (divTI_zero V.chk ht hy' ((zero_bounds hy').2 hy.subset))

theorem C04_div_zero_num_right (hV : V.Directed) (hx : (γ x).Nonempty) (ht : val t = some 0) :
    V.YieldsEmpty (divIT V.P x t) := by
  obtain ⟨_, _, hx⟩ := has_of_nonempty hx
  exact V.runEmpty hV (fun _ h => divIT_sim h x t) (divIT_zero V.chk hx ht)

/-! ## C50 -/

theorem C50_add (hV : V.Directed) (hs : val s = some (r : EReal)) (ht : val t = some (q : EReal)) :
    V.Returns (addTT V.P s t) fun z => r + q ∈ γ z := by
  have hA := hV.dir du_weak
  exact V.run hV (fun _ h => addTT_sim h s t) ((addTT_post hA.op V.chk hs ht).mono fun z hz =>
    hz.encl hA.D_le hA.U_ge rfl)

theorem C50_sub (hV : V.Directed) (hs : val s = some (r : EReal)) (ht : val t = some (q : EReal)) :
    V.Returns (subTT V.P s t) fun z => r - q ∈ γ z := by
  have hA := hV.dir du_weak
  exact V.run hV (fun _ h => subTT_sim h s t) ((subTT_post hA.op V.chk hs ht).mono fun z hz =>
    hz.encl hA.D_le hA.U_ge rfl)

theorem C50_mul (hV : V.Directed) (hs : val s = some (r : EReal)) (ht : val t = some (q : EReal)) :
    V.Returns (mulTT V.P s t) fun z => r * q ∈ γ z := by
  have hA := hV.dir du_weak
  exact V.run hV (fun _ h => mulTT_sim h s t) ((mulTT_post hA.op V.chk hs ht).mono fun z hz =>
    hz.encl hA.D_le hA.U_ge rfl)

theorem C50_div (hV : V.Directed) (hs : val s = some (r : EReal)) (ht : val t = some (q : EReal)) (h0 : q ≠ 0) :
    V.Returns (divTT V.P s t) fun z => r / q ∈ γ z := by
  have hA := hV.dir du_weak
  exact V.run hV (fun _ h => divTT_sim h s t) ((divTT_post (hV.div du_weak) V.chk hs ht h0).mono fun z hz =>
    hz.encl hA.D_le hA.U_ge rfl)

theorem C50_div_zero (hV : V.Directed) (hs : val s = some (r : EReal)) (ht : val t = some 0) :
    V.YieldsEmpty (divTT V.P s t) :=
  V.runEmpty hV (fun _ h => divTT_sim h s t) (divTT_zero V.chk hs ht)

/-! ## The hypotheses can be met: doubles, floats, rationals -/

/-- `[1,2] + [-3,5]` in the default configuration for `double` contains `2.5`. -/
example : dbl.Returns (addII dbl.P (litI 1 2) (litI (-3) 5)) fun z => (5 / 2 : ℝ) ∈ γ z :=
  (C01_add dbl dbl_directed (litI_nonempty (by decide) (by decide) (by decide))
    (litI_nonempty (by decide) (by decide) (by decide))).mono fun z hz => by
      have := hz (3 / 2) ((mem_litI (by decide) (by decide)).2 (by norm_num)) 1
        ((mem_litI (by decide) (by decide)).2 (by norm_num))
      norm_num at this; exact this

/-- The same with a policy for `float` that represents empty intervals. -/
example : flt.Returns (mulII flt.P (litI (-1) 2) (litI (-3) 5)) fun z => (-6 : ℝ) ∈ γ z ∧ (10 : ℝ) ∈ γ z :=
  (C03_mul flt flt_directed (litI_nonempty (by decide) (by decide) (by decide))
    (litI_nonempty (by decide) (by decide) (by decide))).mono fun z hz => by
      have h1 := hz 2 ((mem_litI (by decide) (by decide)).2 (by norm_num)) (-3)
        ((mem_litI (by decide) (by decide)).2 (by norm_num))
      have h2 := hz 2 ((mem_litI (by decide) (by decide)).2 (by norm_num)) 5
        ((mem_litI (by decide) (by decide)).2 (by norm_num))
      norm_num at h1 h2; exact ⟨h1, h2⟩

/-- One third is not a double; it is enclosed. -/
example : dbl.Returns (divII dbl.P (litI 1 1) (litI 3 3)) fun z => (1 / 3 : ℝ) ∈ γ z :=
  (C04_div_partial dbl dbl_directed (litI_nonempty (by decide) (by decide) (by decide))
    ⟨3, (mem_litI (by decide) (by decide)).2 (by norm_num), by norm_num⟩ (.inl fl_inf)).mono fun z hz => by
      exact hz 1 ((mem_litI (by decide) (by decide)).2 (by norm_num)) 3
        ((mem_litI (by decide) (by decide)).2 (by norm_num)) (by norm_num)

/-- A divisor around zero. -/
example : dbl.Returns (divII dbl.P (litI 1 1) (litI (-1) 1)) fun z => (1000 : ℝ) ∈ γ z :=
  (C04_div_partial dbl dbl_directed (litI_nonempty (by decide) (by decide) (by decide))
    ⟨1, (mem_litI (by decide) (by decide)).2 (by norm_num), by norm_num⟩ (.inl fl_inf)).mono fun z hz => by
      have := hz 1 ((mem_litI (by decide) (by decide)).2 (by norm_num)) (1 / 1000)
        ((mem_litI (by decide) (by decide)).2 (by norm_num)) (by norm_num)
      norm_num at this; exact this

/-- The default policy throws on division by zero, the other one returns an empty interval. -/
example : dbl.Throws (divII dbl.P (litI 1 1) (litI 0 0)) .emptyCreated :=
  C04_div_zero dbl dbl_directed (litI_nonempty (by decide) (by decide) (by decide))
    (by ext r; rw [mem_litI (by decide) (by decide)]; simp only [Int.cast_zero, mem_singleton_iff]
        constructor
        · intro h; linarith
        · rintro rfl; simp)

example : ratEnv.Returns (subII ratEnv.P (litI 1 2) (litI 0 4)) fun z => (-3 : ℝ) ∈ γ z :=
  (C02_sub ratEnv ratEnv_directed (litI_nonempty (by decide) (by decide) (by decide))
    (litI_nonempty (by decide) (by decide) (by decide))).mono fun z hz => by
      have := hz 1 ((mem_litI (by decide) (by decide)).2 (by norm_num)) 4
        ((mem_litI (by decide) (by decide)).2 (by norm_num))
      norm_num at this; exact this

example : dbl.Returns (divTT dbl.P (Num.lit 1) (Num.lit 3)) fun z => (1 / 3 : ℝ) ∈ γ z :=
  (C50_div dbl dbl_directed (r := ((1 : Int) : ℝ)) (q := ((3 : Int) : ℝ)) (NumLaws.lit 1 (by decide))
    (NumLaws.lit 3 (by decide)) (by norm_num)).mono fun z hz => by norm_num at hz; simpa using hz

end BI
