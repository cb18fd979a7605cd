import Verif.Props.Compare
import Verif.Props.Algebra
/-!
# C73: what may be concluded from comparisons

doc/interval.htm, Common Pitfalls and Dangers: operators do not try to know if two intervals are the same object, and
`[a,b] < [c,d]` is not always the negation of `[a,b] >= [c,d]`, except for the default comparison.
`cmpII` is the default comparison; `certainII`, `possibleII`, `triII`, `lexII` and `setII` are those of compare/*.hpp.
-/

namespace BI
open Set

/-- The relation with the operands exchanged. -/
def Rel.swap : Rel → Rel
  | .lt => .gt
  | .le => .ge
  | .gt => .lt
  | .ge => .le
  | .eq => .eq
  | .ne => .ne

variable {T : Type} [Num T] [Val T] [NumLaws T] (V V' W : Env T) {x y w x' y' : Itv T}

theorem Rel.swap_holds (r : Rel) (p q : ℝ) : r.swap.holds q p ↔ r.holds p q := by
  cases r <;> simp [Rel.swap, Rel.holds, eq_comm]

theorem always_swap (r : Rel) (X Y : Set ℝ) : Always r.swap Y X ↔ Always r X Y :=
  ⟨fun h p hp q hq => (r.swap_holds p q).1 (h q hq p hp), fun h q hq p hp => (r.swap_holds p q).2 (h p hp q hq)⟩

theorem sometimes_swap (r : Rel) (X Y : Set ℝ) : Sometimes r.swap Y X ↔ Sometimes r X Y :=
  ⟨fun ⟨q, hq, p, hp, h⟩ => ⟨p, hp, q, hq, (r.swap_holds p q).1 h⟩, fun ⟨p, hp, q, hq, h⟩ => ⟨q, hq, p, hp, (r.swap_holds p q).2 h⟩⟩

theorem always_dual (r : Rel) (X Y : Set ℝ) : Always r.dual X Y ↔ ¬ Sometimes r X Y := by
  rw [sometimes_iff, not_not]

theorem sometimes_dual (r : Rel) (X Y : Set ℝ) : Sometimes r.dual X Y ↔ ¬ Always r X Y := by
  rw [sometimes_iff, dual_dual]

open scoped Classical in
theorem cmp_cases (r : Rel) (hx : (γ x).Nonempty) (hy : (γ y).Nonempty) :
    cmpII r V.C V'.C x y = if Always r (γ x) (γ y) then .ok true else if Sometimes r (γ x) (γ y) then .error .comparison else .ok false := by
  obtain ⟨h1, h2, h3⟩ := C30_cmp V V' r hx hy
  split_ifs with h h'
  exacts [h1 h, h3 h' h, h2 h']

theorem always_sometimes (r : Rel) {X Y : Set ℝ} (hX : X.Nonempty) (hY : Y.Nonempty) (h : Always r X Y) : Sometimes r X Y := by
  obtain ⟨p, hp⟩ := hX
  obtain ⟨q, hq⟩ := hY
  exact ⟨p, hp, q, hq, h p hp q hq⟩

/-- The default comparison is the negation of the complementary comparison, and throws if it does. -/
theorem C73_not (r : Rel) (hx : (γ x).Nonempty) (hy : (γ y).Nonempty) :
    cmpII r.dual V.C V'.C x y = (cmpII r V.C V'.C x y).map (!·) := by
  rw [cmp_cases V V' r.dual hx hy, cmp_cases V V' r hx hy, always_dual, sometimes_dual]
  by_cases h : Always r (γ x) (γ y)
  · simp [h, always_sometimes r hx hy h, Except.map]
  · by_cases h' : Sometimes r (γ x) (γ y) <;> simp [h, h', Except.map]

/-- So is the three-valued comparison. -/
theorem C73_not_tri (r : Rel) (hx : (γ x).Nonempty) (hy : (γ y).Nonempty) :
    triII r.dual V.C V'.C x y = (triII r V.C V'.C x y).map (·.map (!·)) := by
  rw [C31_tri V V' r.dual hx hy, C31_tri V V' r hx hy, always_dual, sometimes_dual]
  by_cases h : Always r (γ x) (γ y)
  · simp [h, always_sometimes r hx hy h, Except.map]
  · by_cases h' : Sometimes r (γ x) (γ y) <;> simp [h, h', Except.map]

/-- `certain` and `possible` are the negations of each other; "certain" says no more than "possible". -/
theorem C73_not_certain (r : Rel) (hx : (γ x).Nonempty) (hy : (γ y).Nonempty) :
    possibleII r.dual V.C V'.C x y = (certainII r V.C V'.C x y).map (!·) ∧
    (certainII r V.C V'.C x y = .ok true → possibleII r V.C V'.C x y = .ok true) ∧
    (cmpII r V.C V'.C x y = .ok true ↔ certainII r V.C V'.C x y = .ok true) ∧
    (cmpII r V.C V'.C x y = .ok false ↔ possibleII r V.C V'.C x y = .ok false) := by
  rw [C32_certain V V' r hx hy, C32_possible V V' r hx hy, C32_possible V V' r.dual hx hy, sometimes_dual, cmp_cases V V' r hx hy]
  refine ⟨by simp [Except.map], fun h => ?_, ?_, ?_⟩
  · have : Always r (γ x) (γ y) := by simpa using h
    simpa using always_sometimes r hx hy this
  · by_cases h : Always r (γ x) (γ y) <;> by_cases h' : Sometimes r (γ x) (γ y) <;> simp [h, h']
  · by_cases h : Always r (γ x) (γ y)
    · simp [h, always_sometimes r hx hy h]
    · by_cases h' : Sometimes r (γ x) (γ y) <;> simp [h, h']

/-- The operands can be exchanged. -/
theorem C73_swap (r : Rel) (hx : (γ x).Nonempty) (hy : (γ y).Nonempty) :
    cmpII r.swap V'.C V.C y x = cmpII r V.C V'.C x y ∧ triII r.swap V'.C V.C y x = triII r V.C V'.C x y ∧
    certainII r.swap V'.C V.C y x = certainII r V.C V'.C x y ∧ possibleII r.swap V'.C V.C y x = possibleII r V.C V'.C x y := by
  rw [cmp_cases V' V r.swap hy hx, cmp_cases V V' r hx hy, C31_tri V' V r.swap hy hx, C31_tri V V' r hx hy,
    C32_certain V' V r.swap hy hx, C32_certain V V' r hx hy, C32_possible V' V r.swap hy hx, C32_possible V V' r hx hy]
  have h1 := propext (always_swap r (γ x) (γ y))
  have h2 := propext (sometimes_swap r (γ x) (γ y))
  rw [h1, h2]
  exact ⟨rfl, rfl, rfl, rfl⟩

/-! ## An interval and itself -/

theorem always_eq_self {X : Set ℝ} (h : X.Nonempty) : Always .eq X X ↔ ∃ p, X = {p} := by
  constructor
  · intro ha
    obtain ⟨p, hp⟩ := h
    exact ⟨p, Set.eq_singleton_iff_unique_mem.2 ⟨hp, fun q hq => ha q hq p hp⟩⟩
  · rintro ⟨p, rfl⟩ a rfl b rfl; rfl

theorem always_le_self {X : Set ℝ} : Always .le X X ↔ Always .eq X X :=
  ⟨fun h p hp q hq => le_antisymm (h p hp q hq) (h q hq p hp), fun h p hp q hq => le_of_eq (h p hp q hq)⟩

theorem sometimes_eq_self {X : Set ℝ} (h : X.Nonempty) : Sometimes .eq X X := by
  obtain ⟨p, hp⟩ := h
  exact ⟨p, hp, p, hp, rfl⟩

open scoped Classical in
/-- The default comparison finds `x` equal to `x`, and `x <= x`, for single points only; otherwise it throws. `x < x` is false for
single points and throws otherwise. -/
theorem C73_self (hx : (γ x).Nonempty) :
    ((∃ p, γ x = {p}) → cmpII .eq V.C V.C x x = .ok true ∧ cmpII .le V.C V.C x x = .ok true ∧ cmpII .ge V.C V.C x x = .ok true ∧
      cmpII .ne V.C V.C x x = .ok false ∧ cmpII .lt V.C V.C x x = .ok false ∧ cmpII .gt V.C V.C x x = .ok false) ∧
    ((¬ ∃ p, γ x = {p}) → ∀ r, cmpII r V.C V.C x x = .error .comparison) := by
  have h1 : cmpII .eq V.C V.C x x = if ∃ p, γ x = {p} then .ok true else .error .comparison := by
    rw [cmp_cases V V .eq hx hx]
    simp only [always_eq_self hx, sometimes_eq_self hx, if_true]
  have h2 : cmpII .le V.C V.C x x = if ∃ p, γ x = {p} then .ok true else .error .comparison := by
    rw [cmp_cases V V .le hx hx]
    have : Sometimes .le (γ x) (γ x) := let ⟨p, hp⟩ := hx; ⟨p, hp, p, hp, le_refl _⟩
    simp only [always_le_self, always_eq_self hx, this, if_true]
  have h3 : cmpII .ge V.C V.C x x = cmpII .le V.C V.C x x := (C73_swap V V .le hx hx).1
  have h4 := C73_not V V .eq hx hx
  have h5 := C73_not V V .ge hx hx
  have h6 := C73_not V V .le hx hx
  simp only [Rel.dual] at h4 h5 h6
  rw [h3] at h5
  refine ⟨fun h => ?_, fun h r => ?_⟩
  · rw [h4, h5, h6, h3, h1, h2, if_pos h]
    exact ⟨rfl, rfl, rfl, rfl, rfl, rfl⟩
  · rw [if_neg h] at h1 h2
    cases r
    · rw [h5, h2]; rfl
    · exact h2
    · rw [h6, h2]; rfl
    · rw [h3]; exact h2
    · exact h1
    · rw [h4, h1]; rfl

/-- With the certain comparison `x == x` holds for single points only and `x != x` never; with the possible one `x == x` always
holds and `x != x` unless `x` is a single point; with the lexicographic and the set comparison `x == x` always. -/
theorem C73_self_other (hx : (γ x).Nonempty) :
    (certainII .eq V.C V.C x x = .ok true ↔ ∃ p, γ x = {p}) ∧ certainII .ne V.C V.C x x = .ok false ∧
    (cerII .eq x x = true ↔ ∃ p, γ x = {p}) ∧ cerII .ne x x = false ∧
    possibleII .eq V.C V.C x x = .ok true ∧ (possibleII .ne V.C V.C x x = .ok true ↔ ¬ ∃ p, γ x = {p}) ∧
    posII .eq x x = true ∧ (posII .ne x x = true ↔ ¬ ∃ p, γ x = {p}) ∧
    lexII .eq V.C V.C x x = .ok true ∧ setII .eq V.C V.C x x = .ok true := by
  have hn : ¬ Always .ne (γ x) (γ x) := fun h => let ⟨p, hp⟩ := hx; h p hp p hp rfl
  have hs : Sometimes .ne (γ x) (γ x) ↔ ¬ ∃ p, γ x = {p} := by
    rw [← always_eq_self hx]; exact sometimes_dual .eq _ _
  rw [C32_certain V V _ hx hx, C32_certain V V _ hx hx, C33_cer _ hx hx, C33_cer _ hx hx, C32_possible V V _ hx hx,
    C32_possible V V _ hx hx, C33_pos _ hx hx, C33_pos _ hx hx]
  refine ⟨?_, ?_, ?_, ?_, ?_, ?_, ?_, ?_, ?_, ?_⟩
  · simpa using always_eq_self hx
  · simp [hn]
  · simpa using always_eq_self hx
  · simp [hn]
  · simp [sometimes_eq_self hx]
  · simpa using hs
  · simp [sometimes_eq_self hx]
  · simpa using hs
  · exact ((C34_order V V hx hx hx V).2.2.2.2.2.1).2 rfl
  · rw [(C35_set V V (.inl hx) (.inl hx)).2.2.1]; simp

/-- doc/interval.htm 822-823: "if the comparison used is certain, then `x != x` is always true unless `x` is a singleton
interval". It is always false. -/
theorem C73_self_violated : (¬ ∃ p, γ (litI 1 2 : Itv (Fl .double)) = {p}) ∧
    certainII .ne dbl.C dbl.C (litI 1 2) (litI 1 2) = .ok false ∧ cerII .ne (litI 1 2 : Itv (Fl .double)) (litI 1 2) = false := by
  refine ⟨?_, by decide +kernel, by decide +kernel⟩
  rintro ⟨p, hp⟩
  have h1 : (1 : ℝ) ∈ γ (litI 1 2 : Itv (Fl .double)) := in_lit
  have h2 : (2 : ℝ) ∈ γ (litI 1 2 : Itv (Fl .double)) := in_lit
  rw [hp] at h1 h2
  have := h1.trans h2.symm
  norm_num at this

/-- `certain` is not total: neither `[1,3] < [2,4]` nor `[1,3] >= [2,4]`; with `possible` both hold. -/
theorem C73_not_total :
    certainII .lt dbl.C dbl.C (litI 1 3) (litI 2 4) = .ok false ∧ certainII .ge dbl.C dbl.C (litI 1 3) (litI 2 4) = .ok false ∧
    possibleII .lt dbl.C dbl.C (litI 1 3) (litI 2 4) = .ok true ∧ possibleII .ge dbl.C dbl.C (litI 1 3) (litI 2 4) = .ok true := by
  decide +kernel

/-! ## Chains, parts, overlaps -/

/-- What the relations on numbers conclude, the certain comparisons conclude. -/
theorem C73_trans (r s t : Rel) (h : ∀ p q u : ℝ, r.holds p q → s.holds q u → t.holds p u) (hx : (γ x).Nonempty) (hy : (γ y).Nonempty)
    (hw : (γ w).Nonempty) :
    (cmpII r V.C V'.C x y = .ok true → cmpII s V'.C W.C y w = .ok true → cmpII t V.C W.C x w = .ok true) ∧
    (certainII r V.C V'.C x y = .ok true → certainII s V'.C W.C y w = .ok true → certainII t V.C W.C x w = .ok true) ∧
    (certainII r V.C V'.C x y = .ok true → possibleII s V'.C W.C y w = .ok true → possibleII t V.C W.C x w = .ok true) ∧
    (possibleII r V.C V'.C x y = .ok true → certainII s V'.C W.C y w = .ok true → possibleII t V.C W.C x w = .ok true) := by
  have ha : Always r (γ x) (γ y) → Always s (γ y) (γ w) → Always t (γ x) (γ w) := fun h1 h2 p hp u hu =>
    let ⟨q, hq⟩ := hy; h p q u (h1 p hp q hq) (h2 q hq u hu)
  rw [(C73_not_certain V V' r hx hy).2.2.1, (C73_not_certain V' W s hy hw).2.2.1, (C73_not_certain V W t hx hw).2.2.1,
    C32_certain V V' r hx hy, C32_certain V' W s hy hw, C32_certain V W t hx hw, C32_possible V V' r hx hy,
    C32_possible V' W s hy hw, C32_possible V W t hx hw]
  simp only [Except.ok.injEq, decide_eq_true_eq]
  refine ⟨ha, ha, fun h1 ⟨q, hq, u, hu, h2⟩ => ?_, fun ⟨p, hp, q, hq, h1⟩ h2 => ?_⟩
  · obtain ⟨p, hp⟩ := hx
    exact ⟨p, hp, u, hu, h p q u (h1 p hp q hq) h2⟩
  · obtain ⟨u, hu⟩ := hw
    exact ⟨p, hp, u, hu, h p q u h1 (h2 q hq u hu)⟩

/-- The possible comparisons do not chain. -/
theorem C73_possible_chain : possibleII .lt dbl.C dbl.C (litI 2 3) (litI 1 4) = .ok true ∧
    possibleII .lt dbl.C dbl.C (litI 1 4) (litI 1 2) = .ok true ∧ possibleII .lt dbl.C dbl.C (litI 2 3) (litI 1 2) = .ok false := by
  decide +kernel

/-- An answer of the default comparison remains for parts of the operands. -/
theorem C73_parts (r : Rel) (hx : (γ x').Nonempty) (hy : (γ y').Nonempty) (hxx : γ x' ⊆ γ x) (hyy : γ y' ⊆ γ y) {b : Bool}
    (h : cmpII r V.C V'.C x y = .ok b) : cmpII r V.C V'.C x' y' = .ok b := by
  rw [cmp_cases V V' r (hx.mono hxx) (hy.mono hyy)] at h
  have ha : Always r (γ x) (γ y) → Always r (γ x') (γ y') := fun h p hp q hq => h p (hxx hp) q (hyy hq)
  have hs : Sometimes r (γ x') (γ y') → Sometimes r (γ x) (γ y) := fun ⟨p, hp, q, hq, h⟩ => ⟨p, hxx hp, q, hyy hq, h⟩
  rw [cmp_cases V V' r hx hy]
  split_ifs at h with h1 h2
  · rw [if_pos (ha h1)]; exact h
  · have h3 : ¬ Sometimes r (γ x') (γ y') := fun h => h2 (hs h)
    rw [if_neg fun h => h3 (always_sometimes r hx hy h), if_neg h3]; exact h

omit [Num T] [NumLaws T] in
theorem gamma_ordConnected (x : Itv T) : (γ x).OrdConnected := by
  constructor
  intro p hp q hq u hu
  obtain ⟨a, b, ha, hb, h1, h2⟩ := hp
  obtain ⟨a', b', ha', hb', h1', h2'⟩ := hq
  exact ⟨a, b', ha, hb', h1.trans (EReal.coe_le_coe_iff.2 hu.1), (EReal.coe_le_coe_iff.2 hu.2).trans h2'⟩

/-- Disjoint intervals can be compared with every operator, and are different. If operands are compared that have two points in
common, each operator throws. -/
theorem C73_overlap (r : Rel) (hx : (γ x).Nonempty) (hy : (γ y).Nonempty) :
    (Disjoint (γ x) (γ y) → (∃ b, cmpII r V.C V'.C x y = .ok b) ∧ cmpII .eq V.C V'.C x y = .ok false) ∧
    ((γ x ∩ γ y).Nontrivial → cmpII r V.C V'.C x y = .error .comparison) := by
  constructor
  · intro hd
    have hne : ∀ p ∈ γ x, ∀ q ∈ γ y, p ≠ q := fun p hp q hq e => Set.disjoint_left.1 hd hp (e ▸ hq)
    have hlt : Always .lt (γ x) (γ y) ∨ Always .gt (γ x) (γ y) := by
      by_contra hc
      unfold Always at hc
      push Not at hc
      obtain ⟨⟨p, hp, q, hq, h⟩, p', hp', q', hq', h'⟩ := hc
      simp only [Rel.holds, not_lt, gt_iff_lt] at h h'
      -- q ≤ p and p' ≤ q'
      rcases le_total p p' with hpp | hpp
      · exact Set.disjoint_left.1 hd hp ((gamma_ordConnected y).out hq hq' ⟨h, hpp.trans h'⟩)
      · rcases le_total p' q with h1 | h1
        · exact Set.disjoint_left.1 hd ((gamma_ordConnected x).out hp' hp ⟨h1, h⟩) hq
        · exact Set.disjoint_left.1 hd hp' ((gamma_ordConnected y).out hq hq' ⟨h1, h'⟩)
    have key : ∀ r, Always r (γ x) (γ y) ∨ Always r.dual (γ x) (γ y) := by
      intro r
      rcases hlt with h | h
      · cases r
        exacts [.inl h, .inl fun p hp q hq => le_of_lt (h p hp q hq), .inr fun p hp q hq => le_of_lt (h p hp q hq), .inr h,
          .inr hne, .inl hne]
      · cases r
        exacts [.inr fun p hp q hq => le_of_lt (h p hp q hq), .inr h, .inl h, .inl fun p hp q hq => le_of_lt (h p hp q hq),
          .inr hne, .inl hne]
    refine ⟨?_, (C30_cmp V V' .eq hx hy).2.1 ((always_dual .eq _ _).1 hne)⟩
    rcases key r with h | h
    · exact ⟨_, (C30_cmp V V' r hx hy).1 h⟩
    · exact ⟨_, (C30_cmp V V' r hx hy).2.1 ((always_dual r _ _).1 h)⟩
  · rintro ⟨p, ⟨hp, hp'⟩, q, ⟨hq, hq'⟩, hpq⟩
    refine (C30_cmp V V' r hx hy).2.2 ?_ fun ha => ?_
    · rcases lt_or_gt_of_ne hpq with h | h <;> cases r
      exacts [⟨p, hp, q, hq', h⟩, ⟨p, hp, q, hq', h.le⟩, ⟨q, hq, p, hp', h⟩, ⟨q, hq, p, hp', h.le⟩, ⟨p, hp, p, hp', rfl⟩, ⟨p, hp, q, hq', hpq⟩,
        ⟨q, hq, p, hp', h⟩, ⟨q, hq, p, hp', h.le⟩, ⟨p, hp, q, hq', h⟩, ⟨p, hp, q, hq', h.le⟩, ⟨p, hp, p, hp', rfl⟩, ⟨p, hp, q, hq', hpq⟩]
    · have h1 := ha p hp q hq'
      have h2 := ha q hq p hp'
      have h3 := ha p hp p hp'
      cases r
      exacts [lt_irrefl _ h3, hpq (le_antisymm h1 h2), lt_irrefl _ h3, hpq (le_antisymm h2 h1), hpq h1, h3 rfl]

/-! ## The hypotheses can be met -/

example := C73_not dbl dbl .lt (x := litI 1 3) (y := litI 2 4) ne_lit ne_lit
example := C73_not_tri flt flt .eq (x := litI 2 2) (y := litI 2 2) ne_lit ne_lit
example := C73_not_certain ratEnv ratEnv .ne (x := litI 1 3) (y := litI 2 4) ne_lit ne_lit
example := C73_swap dbl dbl .le (x := litI 1 2) (y := litI 2 4) ne_lit ne_lit
example := C73_self dbl (x := litI 1 2) ne_lit
example := C73_self_other dbl (x := litI 2 2) ne_lit
/-- `[1,2] <= [2,3]` and `[2,3] < [4,5]`, so `[1,2] < [4,5]`. -/
example : cmpII .lt dbl.C dbl.C (litI 1 2) (litI 4 5) = .ok true :=
  (C73_trans dbl dbl dbl .le .lt .lt (fun _ _ _ h h' => lt_of_le_of_lt h h') (x := litI 1 2) (y := litI 2 3) (w := litI 4 5) ne_lit ne_lit ne_lit).1
    (by decide +kernel) (by decide +kernel)
/-- `[1,4] < [5,7]`, so `[2,3] < [6,7]`. -/
example : cmpII .lt dbl.C dbl.C (litI 2 3) (litI 6 7) = .ok true := by
  refine C73_parts dbl dbl .lt (x := litI 1 4) (y := litI 5 7) ne_lit ne_lit ?_ ?_ (by decide +kernel)
  all_goals
    intro r h
    rw [mem_litI (by decide) (by decide)] at h ⊢
    constructor <;> norm_num at h ⊢ <;> linarith
/-- `[1,3]` and `[2,4]` have 2 and 3 in common. -/
example : cmpII .ne dbl.C dbl.C (litI 1 3) (litI 2 4) = .error .comparison :=
  (C73_overlap dbl dbl .ne ne_lit ne_lit).2 ⟨2, ⟨in_lit, in_lit⟩, 3, ⟨in_lit, in_lit⟩, by norm_num⟩

end BI
