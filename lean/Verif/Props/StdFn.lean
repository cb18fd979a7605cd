import Verif.Model.StdFn
import Verif.Props.Compare
import Verif.Props.Arith2
import Verif.Props.Algebra
import Verif.Proofs.Expr
/-!
# C81: hull and union; `min`, `max`, `abs` of the standard library and of this library; the examples of the documentation
-/

namespace BI
open Set Classical

section
variable {T : Type} [Num T] [Val T] [NumLaws T] (V : Env T) {x y : Itv T}

/-! ## Hull and union -/

/-- "If they overlap, the `hull` function computes the union", and only then. -/
theorem C81_hull_union (hx : (γ x).Nonempty) (hy : (γ y).Nonempty) :
    ∃ z b, hullII V.C x y = .ok z ∧ overlap V.C V.C x y = .ok b ∧ (b = true ↔ γ z = γ x ∪ γ y) := by
  obtain ⟨a, b, ix⟩ := has_of_nonempty hx
  obtain ⟨c, d, iy⟩ := has_of_nonempty hy
  refine ⟨⟨stdMin x.lower y.lower, stdMax x.upper y.upper⟩, _, ?_, C22_overlap V V (.inl hx) (.inl hy), ?_⟩
  · unfold hullII; rw [ix.test V.chk, iy.test V.chk]; rfl
  rw [decide_eq_true_iff]
  constructor
  · rintro ⟨p, hp, hq⟩
    refine Subset.antisymm ?_ (hull_gamma ix iy).1
    rw [(hull_has ix iy).gamma]
    rintro r ⟨h1, h2⟩
    rcases le_total r p with hr | hr
    · have hr' : (r : EReal) ≤ p := EReal.coe_le_coe_iff.2 hr
      rcases min_le_iff.1 h1 with h1 | h1
      · exact .inl (by rw [ix.gamma]; exact ⟨h1, hr'.trans (ix.ub hp)⟩)
      · exact .inr (by rw [iy.gamma]; exact ⟨h1, hr'.trans (iy.ub hq)⟩)
    · have hr' : (p : EReal) ≤ r := EReal.coe_le_coe_iff.2 hr
      rcases le_max_iff.1 h2 with h2 | h2
      · exact .inl (by rw [ix.gamma]; exact ⟨(ix.lb hp).trans hr', h2⟩)
      · exact .inr (by rw [iy.gamma]; exact ⟨(iy.lb hq).trans hr', h2⟩)
  · intro h
    by_contra hn
    -- two disjoint intervals leave a gap
    have gap : ∀ {u v : Itv T} {k l m n : EReal}, Has u k l → Has v m n → ¬ (γ u ∩ γ v).Nonempty →
        (∃ p ∈ γ u, ∃ q ∈ γ v, p < q) → ∃ r, r ∉ γ u ∧ r ∉ γ v ∧ ∃ p ∈ γ u, ∃ q ∈ γ v, p ≤ r ∧ r ≤ q := by
      rintro u v k l m n iu iv hd ⟨p, hp, q, hq, hpq⟩
      have hlm : l < m := by
        by_contra hc
        rw [not_lt] at hc
        refine hd ?_
        have h1 := iu.lb hp; have h2 := iu.ub hp; have h3 := iv.lb hq; have h4 := iv.ub hq
        have h5 : (p : EReal) < q := EReal.coe_lt_coe_iff.2 hpq
        rcases le_total m p with h | h
        · exact ⟨p, hp, by rw [iv.gamma]; exact ⟨h, h5.le.trans h4⟩⟩
        · have hm : m = ((m.toReal : ℝ) : EReal) := (EReal.coe_toReal (fun e => by rw [e] at h3; exact EReal.coe_ne_top _ (top_le_iff.1 h3))
            (fun e => by rw [e] at h; exact EReal.coe_ne_bot _ (le_bot_iff.1 h))).symm
          refine ⟨m.toReal, ?_, ?_⟩
          · rw [iu.gamma]; exact ⟨by rw [← hm]; exact h1.trans h, by rw [← hm]; exact hc⟩
          · rw [iv.gamma]; exact ⟨by rw [← hm], by rw [← hm]; exact h3.trans h4⟩
      obtain ⟨r, h1, h2⟩ := EReal.exists_between_coe_real hlm
      refine ⟨r, fun h => absurd (iu.ub h) (not_le.2 h1), fun h => absurd (iv.lb h) (not_le.2 h2), p, hp, q, hq,
        EReal.coe_le_coe_iff.1 ((iu.ub hp).trans h1.le), EReal.coe_le_coe_iff.1 (h2.le.trans (iv.lb hq))⟩
    obtain ⟨p, hp⟩ := hx
    obtain ⟨q, hq⟩ := hy
    have hsub := (hull_gamma ix iy).1
    rcases lt_trichotomy p q with hpq | rfl | hpq
    · obtain ⟨r, n1, n2, p, hp, q, hq, l1, l2⟩ := gap ix iy hn ⟨p, hp, q, hq, hpq⟩
      have : r ∈ γ x ∪ γ y := h ▸ gamma_convex (hsub (.inl hp)) (hsub (.inr hq)) l1 l2
      exact this.elim n1 n2
    · exact hn ⟨p, hp, hq⟩
    · obtain ⟨r, n1, n2, q, hq, p, hp, l1, l2⟩ := gap iy ix (by rwa [inter_comm] at hn) ⟨q, hq, p, hp, hpq⟩
      have : r ∈ γ x ∪ γ y := h ▸ gamma_convex (hsub (.inr hq)) (hsub (.inl hp)) l1 l2
      exact this.elim n2 n1

/-! ## The functions of the standard library -/

theorem bind_true {α : Type} {c : Res Bool} {a b : Res α} (h : c = .ok true) : (do if ← c then a else b) = a := by rw [h]; rfl
theorem bind_false {α : Type} {c : Res Bool} {a b : Res α} (h : c = .ok false) : (do if ← c then a else b) = b := by rw [h]; rfl
theorem bind_error {α : Type} {c : Res Bool} {a b : Res α} {e : Err} (h : c = .error e) : (do if ← c then a else b) = .error e := by
  rw [h]; rfl

/-- One operand lies below the other, and they have at most one point in common. -/
theorem max_of_le {X Y : Set ℝ} (hX : X.Nonempty) (h : ∀ a ∈ X, ∀ b ∈ Y, a ≤ b) :
    {q | ∃ a ∈ X, ∃ b ∈ Y, max a b = q} = Y ∧ {q | ∃ a ∈ Y, ∃ b ∈ X, max a b = q} = Y := by
  obtain ⟨p, hp⟩ := hX
  constructor <;> ext q
  · exact ⟨fun ⟨a, ha, b, hb, e⟩ => by rw [← e, max_eq_right (h a ha b hb)]; exact hb, fun hq => ⟨p, hp, q, hq, max_eq_right (h p hp q hq)⟩⟩
  · exact ⟨fun ⟨a, ha, b, hb, e⟩ => by rw [← e, max_eq_left (h b hb a ha)]; exact ha, fun hq => ⟨q, hq, p, hp, max_eq_left (h p hp q hq)⟩⟩

theorem min_of_le {X Y : Set ℝ} (hY : Y.Nonempty) (h : ∀ a ∈ X, ∀ b ∈ Y, a ≤ b) :
    {q | ∃ a ∈ X, ∃ b ∈ Y, min a b = q} = X ∧ {q | ∃ a ∈ Y, ∃ b ∈ X, min a b = q} = X := by
  obtain ⟨p, hp⟩ := hY
  constructor <;> ext q
  · exact ⟨fun ⟨a, ha, b, hb, e⟩ => by rw [← e, min_eq_left (h a ha b hb)]; exact ha, fun hq => ⟨q, hq, p, hp, min_eq_left (h q hq p hp)⟩⟩
  · exact ⟨fun ⟨a, ha, b, hb, e⟩ => by rw [← e, min_eq_right (h b hb a ha)]; exact hb, fun hq => ⟨p, hp, q, hq, min_eq_right (h q hq p hp)⟩⟩

/-- `std::max` and `std::min` return one of their operands or throw. When they return, the result has the points of the `max`, `min`
of this library; they do so for operands of which one lies below the other, except that `std::max(a, b)` throws if they touch
in `a`'s upper and `b`'s lower bound. -/
theorem C81_std_max (hx : (γ x).Nonempty) (hy : (γ y).Nonempty) :
    ((Always .lt (γ x) (γ y) ∨ Always .ge (γ x) (γ y)) →
      ∃ w z, stdMaxI V.C x y = .ok w ∧ (w = x ∨ w = y) ∧ maxII V.C x y = .ok z ∧ γ w = γ z) ∧
    (¬ (Always .lt (γ x) (γ y) ∨ Always .ge (γ x) (γ y)) → stdMaxI V.C x y = .error .comparison) := by
  obtain ⟨h1, h2, h3⟩ := C30_cmp V V .lt hx hy
  obtain ⟨z, hz, e⟩ := C29_max V hx hy
  have hd : Always .ge (γ x) (γ y) ↔ ¬ Sometimes .lt (γ x) (γ y) :=
    ⟨fun h ⟨p, hp, q, hq, hl⟩ => absurd hl (not_lt.2 (h p hp q hq)), fun h p hp q hq => not_lt.1 fun hl => h ⟨p, hp, q, hq, hl⟩⟩
  refine ⟨?_, fun h => ?_⟩
  · rintro (h | h)
    · exact ⟨y, z, bind_true (h1 h), .inr rfl, hz, by rw [e, (max_of_le hx fun a ha b hb => (h a ha b hb : a < b).le).1]⟩
    · exact ⟨x, z, bind_false (h2 (hd.1 h)), .inl rfl, hz, by rw [e, (max_of_le hy fun a ha b hb => h b hb a ha).2]⟩
  · rw [not_or, hd, not_not] at h
    exact bind_error (h3 h.2 h.1)

theorem C81_std_min (hx : (γ x).Nonempty) (hy : (γ y).Nonempty) :
    ((Always .gt (γ x) (γ y) ∨ Always .le (γ x) (γ y)) →
      ∃ w z, stdMinI V.C x y = .ok w ∧ (w = x ∨ w = y) ∧ minII V.C x y = .ok z ∧ γ w = γ z) ∧
    (¬ (Always .gt (γ x) (γ y) ∨ Always .le (γ x) (γ y)) → stdMinI V.C x y = .error .comparison) := by
  obtain ⟨h1, h2, h3⟩ := C30_cmp V V .lt hy hx
  obtain ⟨z, hz, e⟩ := C29_min V hx hy
  have hd : Always .le (γ x) (γ y) ↔ ¬ Sometimes .lt (γ y) (γ x) :=
    ⟨fun h ⟨p, hp, q, hq, hl⟩ => absurd hl (not_lt.2 (h q hq p hp)), fun h p hp q hq => not_lt.1 fun hl => h ⟨q, hq, p, hp, hl⟩⟩
  have hd' : Always .gt (γ x) (γ y) ↔ Always .lt (γ y) (γ x) := ⟨fun h p hp q hq => h q hq p hp, fun h p hp q hq => h q hq p hp⟩
  refine ⟨?_, fun h => ?_⟩
  · rintro (h | h)
    · exact ⟨y, z, bind_true (h1 (hd'.1 h)), .inr rfl, hz, by rw [e, (min_of_le hx fun a ha b hb => (h b hb a ha : a < b).le).2]⟩
    · exact ⟨x, z, bind_false (h2 (hd.1 h)), .inl rfl, hz, by rw [e, (min_of_le hy fun a ha b hb => h a ha b hb).1]⟩
  · rw [not_or, hd, hd', not_not] at h
    exact bind_error (h3 h.2 h.1)

/-- The forms given in the documentation. -/
theorem C81_cond_max (hx : (γ x).Nonempty) (hy : (γ y).Nonempty) :
    ((Always .gt (γ x) (γ y) ∨ Always .le (γ x) (γ y)) →
      ∃ w z, condMax V.C x y = .ok w ∧ (w = x ∨ w = y) ∧ maxII V.C x y = .ok z ∧ γ w = γ z) ∧
    (¬ (Always .gt (γ x) (γ y) ∨ Always .le (γ x) (γ y)) → condMax V.C x y = .error .comparison) := by
  obtain ⟨h1, h2, h3⟩ := C30_cmp V V .gt hx hy
  obtain ⟨z, hz, e⟩ := C29_max V hx hy
  have hd : Always .le (γ x) (γ y) ↔ ¬ Sometimes .gt (γ x) (γ y) :=
    ⟨fun h ⟨p, hp, q, hq, hl⟩ => absurd hl (not_lt.2 (h p hp q hq)), fun h p hp q hq => not_lt.1 fun hl => h ⟨p, hp, q, hq, hl⟩⟩
  refine ⟨?_, fun h => ?_⟩
  · rintro (h | h)
    · exact ⟨x, z, bind_true (h1 h), .inl rfl, hz, by rw [e, (max_of_le hy fun a ha b hb => (h b hb a ha : a < b).le).2]⟩
    · exact ⟨y, z, bind_false (h2 (hd.1 h)), .inr rfl, hz, by rw [e, (max_of_le hx fun a ha b hb => h a ha b hb).1]⟩
  · rw [not_or, hd, not_not] at h
    exact bind_error (h3 h.2 h.1)

theorem C81_cond_min (hx : (γ x).Nonempty) (hy : (γ y).Nonempty) :
    ((Always .lt (γ x) (γ y) ∨ Always .ge (γ x) (γ y)) →
      ∃ w z, condMin V.C x y = .ok w ∧ (w = x ∨ w = y) ∧ minII V.C x y = .ok z ∧ γ w = γ z) ∧
    (¬ (Always .lt (γ x) (γ y) ∨ Always .ge (γ x) (γ y)) → condMin V.C x y = .error .comparison) := by
  obtain ⟨h1, h2, h3⟩ := C30_cmp V V .lt hx hy
  obtain ⟨z, hz, e⟩ := C29_min V hx hy
  have hd : Always .ge (γ x) (γ y) ↔ ¬ Sometimes .lt (γ x) (γ y) :=
    ⟨fun h ⟨p, hp, q, hq, hl⟩ => absurd hl (not_lt.2 (h p hp q hq)), fun h p hp q hq => not_lt.1 fun hl => h ⟨p, hp, q, hq, hl⟩⟩
  refine ⟨?_, fun h => ?_⟩
  · rintro (h | h)
    · exact ⟨x, z, bind_true (h1 h), .inl rfl, hz, by rw [e, (min_of_le hy fun a ha b hb => (h a ha b hb : a < b).le).1]⟩
    · exact ⟨y, z, bind_false (h2 (hd.1 h)), .inr rfl, hz, by rw [e, (min_of_le hx fun a ha b hb => h b hb a ha).2]⟩
  · rw [not_or, hd, not_not] at h
    exact bind_error (h3 h.2 h.1)

/-- `a < 0 ? -a : a`: the absolute value where the sign is certain, an exception elsewhere. -/
theorem C81_cond_abs (hn : ∀ a : T, Num.neg a ≠ none) (hx : (γ x).Nonempty) :
    (((∀ a ∈ γ x, a < 0) ∨ ∀ a ∈ γ x, 0 ≤ a) → ∃ w z, condAbs V.C x = .ok w ∧ absI V.C x = .ok z ∧ γ w = γ z) ∧
    (¬ ((∀ a ∈ γ x, a < 0) ∨ ∀ a ∈ γ x, 0 ≤ a) → condAbs V.C x = .error .comparison) := by
  obtain ⟨h1, h2, h3⟩ := C30_cmp_num V .lt (t := Num.lit 0) hx (v := ((0 : ℤ) : ℝ)) (NumLaws.lit 0 (by decide))
  obtain ⟨z, hz, e⟩ := C28_abs V hn hx
  have hA : Always .lt (γ x) {((0 : ℤ) : ℝ)} ↔ ∀ a ∈ γ x, a < 0 :=
    ⟨fun h a ha => by simpa [Rel.holds] using h a ha _ rfl, fun h p hp q hq => by
      rw [mem_singleton_iff.1 hq, Int.cast_zero]; exact h p hp⟩
  have hS : ¬ Sometimes .lt (γ x) {((0 : ℤ) : ℝ)} ↔ ∀ a ∈ γ x, 0 ≤ a :=
    ⟨fun h a ha => not_lt.1 fun hl => h ⟨a, ha, _, rfl, by rw [Int.cast_zero]; exact hl⟩, fun h ⟨p, hp, q, hq, hl⟩ => by
      rw [mem_singleton_iff.1 hq, Int.cast_zero] at hl; exact absurd hl (not_lt.2 (h p hp))⟩
  refine ⟨?_, fun h => ?_⟩
  · rintro (h | h)
    · obtain ⟨w, hw, ew⟩ := C02_neg V hn hx
      refine ⟨w, z, (bind_true (h1 (hA.2 h))).trans hw, hz, ?_⟩
      rw [e, ew]; ext q
      exact ⟨fun ⟨a, ha, hq⟩ => ⟨a, ha, by rw [abs_of_neg (h a ha), hq]⟩, fun ⟨a, ha, hq⟩ => ⟨a, ha, by rw [← hq, abs_of_neg (h a ha)]⟩⟩
    · refine ⟨x, z, bind_false (h2 (hS.2 h)), hz, ?_⟩
      rw [e]; ext q
      exact ⟨fun hq => ⟨q, hq, abs_of_nonneg (h q hq)⟩, fun ⟨a, ha, hq⟩ => by rw [← hq, abs_of_nonneg (h a ha)]; exact ha⟩
  · rw [not_or] at h
    exact bind_error (h3 (not_not.1 fun hc => h.2 (hS.1 hc)) fun hc => h.1 (hA.1 hc))
end

/-! ## The examples of the documentation

`double`, default policies, from every state of the control word and for every order of evaluation. -/

/-- `[-2,2]*[-2,2] = [-4,4]` -/
theorem C81_example_product : dbl.Returns (mulII dbl.P (litI (-2) 2) (litI (-2) 2)) (· = litI (-4) 4) :=
  dbl.run dbl_tight (fun _ h => mulII_sim h _ _) (Post.of_ok ⟨_, by decide +kernel, rfl⟩)

/-- `[-2,2]² = [0,4]` -/
theorem C81_example_square : dbl.Returns (squareI dbl.P (litI (-2) 2)) (· = litI 0 4) :=
  dbl.run dbl_tight (fun _ h => squareI_sim h _) (Post.of_ok ⟨_, by decide +kernel, rfl⟩)

/-- `[2,3]/[-2,1]` is the whole line as one interval, and `]-∞,-1]` and `[2,∞[` as two. -/
theorem C81_example_division :
    dbl.Returns (divII dbl.P (litI 2 3) (litI (-2) 1)) (· = ⟨.inf true, .inf false⟩) ∧
    dbl.Returns (divisionPart1 dbl.P (litI 2 3) (litI (-2) 1)) (· = (⟨.inf true, Num.lit (-1)⟩, true)) ∧
    dbl.Returns (divisionPart2 dbl.P (litI 2 3) (litI (-2) 1) true) (· = ⟨Num.lit 2, .inf false⟩) :=
  ⟨dbl.run dbl_tight (fun _ h => divII_sim h _ _) (Post.of_ok ⟨_, by decide +kernel, rfl⟩),
    dbl.run dbl_tight (fun _ h => divisionPart1_sim h _ _) (Post.of_ok ⟨_, by decide +kernel, rfl⟩),
    dbl.run dbl_tight (fun _ h => divisionPart2_sim h _ _ _) (Post.of_ok ⟨_, by decide +kernel, rfl⟩)⟩

/-- `fmod([13,17],[7,8]) = [5,10]` -/
theorem C81_example_fmod : dbl.Returns (fmodII dbl.P (litI 13 17) (litI 7 8)) (· = litI 5 10) :=
  dbl.run dbl_tight (fun _ h => fmodII_sim h _ _) (Post.of_ok ⟨_, by decide +kernel, rfl⟩)

/-! ## The hypotheses can be met -/

example := C81_hull_union dbl (x := litI 0 2) (y := litI 1 3) ne_lit ne_lit
example := C81_hull_union dbl (x := litI 0 1) (y := litI 2 3) ne_lit ne_lit
example := C81_std_max flt (x := litI 0 1) (y := litI 2 3) ne_lit ne_lit
example := C81_std_min dbl (x := litI 0 1) (y := litI 1 3) ne_lit ne_lit
example := C81_cond_max dbl (x := litI 0 1) (y := litI 1 3) ne_lit ne_lit
example := C81_cond_min dbl (x := litI 0 2) (y := litI 1 3) ne_lit ne_lit
example := C81_cond_abs dbl (by intro a; simp [Num.neg]) (x := litI (-2) (-1)) ne_lit
/-- All the outcomes occur. -/
example : stdMaxI dbl.C (litI 0 1) (litI 2 3) = .ok (litI 2 3) ∧ stdMaxI dbl.C (litI 2 3) (litI 1 2) = .ok (litI 2 3) ∧
    stdMaxI dbl.C (litI 1 2) (litI 2 3) = .error .comparison ∧ condMax dbl.C (litI 1 2) (litI 2 3) = .ok (litI 2 3) ∧
    maxII dbl.C (litI 0 2) (litI 1 3) = .ok (litI 1 3) ∧ stdMaxI dbl.C (litI 0 2) (litI 1 3) = .error .comparison := by
  decide +kernel

end BI
