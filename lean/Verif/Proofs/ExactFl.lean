import Verif.Props.Plain
import Verif.Spec.Plain
/-!
# `rounded_arith_exact` over floating-point numbers

The policy does not touch the control word: all operations round in the mode of the caller. Rounding in one mode is monotone,
and this is what the enclosure lemmas of the arithmetic are used with here.
-/

set_option linter.unusedSectionVars false

namespace BI
open Set

section
variable {T : Type} [Num T]

/-- The arithmetic delivered by `rounded_arith_exact` and `rounded_transc_exact` in the mode `m`. -/
def exactArith (m : RMode) (lib : Lib T) : Arith Res T :=
  { convDown := fun v => ofOpt (v.conv m)
    convUp := fun v => ofOpt (v.conv m)
    addDown := fun x y => ofOpt (Num.add m x y)
    addUp := fun x y => ofOpt (Num.add m x y)
    subDown := fun x y => ofOpt (Num.sub m x y)
    subUp := fun x y => ofOpt (Num.sub m x y)
    mulDown := fun x y => ofOpt (Num.mul m x y)
    mulUp := fun x y => ofOpt (Num.mul m x y)
    divDown := fun x y => ofOpt (Num.div m x y)
    divUp := fun x y => ofOpt (Num.div m x y)
    median := fun x y => ofOpt (halfSum m x y)
    sqrtDown := fun x => ofOpt (Num.sqrt m x)
    sqrtUp := fun x => ofOpt (Num.sqrt m x)
    intDown := fun x => ofOpt (Num.floor x)
    intUp := fun x => ofOpt (Num.ceil x)
    fnDown := fun f x => ofOpt (lib f m x)
    fnUp := fun f x => ofOpt (lib f m x) }

variable {c : Ctl} (L : CtlLaws c)

/-- A valid control word with the mode `m`, and it is not changed. -/
def atMode (m : RMode) : Inv c.W where
  Pre w := L.valid w ∧ c.decode w = m
  Rel w w' := w = w'
  refl _ _ := rfl
  trans _ _ _ h h' := Eq.trans h h'

variable {L}

theorem evalIn_at {m : RMode} {α : Type} (f : RMode → Option α) : Sim (atMode L m) (evalIn c f) (ofOpt (f m)) := by
  intro s hs
  refine ⟨?_, rfl, fun _ _ => hs⟩
  change ofOpt (f (c.decode s.cw)) = _
  rw [hs.2]

theorem exactArith_sim (m : RMode) (lib : Lib T) : ASim (atMode L m) (arithOf c .exact lib) (exactArith m lib) where
  convDown _ := OnlyBase.ofOpt _
  convUp _ := OnlyBase.ofOpt _
  addDown _ _ := OnlyBase.ofOpt _
  addUp _ _ := OnlyBase.ofOpt _
  subDown _ _ := OnlyBase.ofOpt _
  subUp _ _ := OnlyBase.ofOpt _
  mulDown _ _ := OnlyBase.ofOpt _
  mulUp _ _ := OnlyBase.ofOpt _
  divDown _ _ := OnlyBase.ofOpt _
  divUp _ _ := OnlyBase.ofOpt _
  median _ _ := OnlyBase.ofOpt _
  sqrtDown _ := OnlyBase.ofOpt _
  sqrtUp _ := OnlyBase.ofOpt _
  intDown _ := OnlyBase.ofOpt _
  intUp _ := OnlyBase.ofOpt _
  fnDown _ _ := OnlyBase.ofOpt _
  fnUp _ _ := OnlyBase.ofOpt _
  s_addDown _ _ := evalIn_at _
  s_addUp _ _ := evalIn_at _
  s_subDown _ _ := evalIn_at _
  s_subUp _ _ := evalIn_at _
  s_mulDown _ _ := evalIn_at _
  s_mulUp _ _ := evalIn_at _
  s_divDown _ _ := evalIn_at _
  s_divUp _ _ := evalIn_at _
  s_median _ _ := evalIn_at _
  s_sqrtDown _ := evalIn_at _
  s_sqrtUp _ := evalIn_at _
  s_intDown _ := Sim.lift _
  s_intUp _ := Sim.lift _
  s_fnDown _ _ := evalIn_at _
  s_fnUp _ _ := evalIn_at _

theorem exactPolicies_sim (m : RMode) (lib : Lib T) (chk : Checking T) :
    PSim (atMode L m) (atMode L m) (barePolicies c .exact lib chk) (exactArith m lib) chk where
  chk := rfl
  scope := fun h => h
  scopeU := fun h => h
  rnd := exactArith_sim m lib
  unp := exactArith_sim m lib
  cur := fun f g h => evalIn_bind f g _ h
  curJ := fun f g h => evalIn_bind f g _ h
end

section
variable {f : Fmt} {m : RMode} {lib : Lib (Fl f)}

/-- `z` is `e` rounded in the mode `m`. -/
def InMode (f : Fmt) (m : RMode) (z e : EReal) : Prop := z = eround f m e

theorem Rounds.inMode {e : EReal} {a : Fl f} (h : Rounds f m e a) : ∃ z, val a = some z ∧ InMode f m z e :=
  h.imp fun _ h => ⟨h.1, h.2.eq⟩

theorem exact_op : OpLaws True (InMode f m) (InMode f m) (exactArith m lib) where
  D_min := by
    rintro z e z' e' rfl rfl
    exact (Monotone.map_min (f := eround f m) fun _ _ h => eround_mono m h).symm
  U_max := by
    rintro z e z' e' rfl rfl
    exact (Monotone.map_max (f := eround f m) fun _ _ h => eround_mono m h).symm
  D_exact a e h := (eround_val m h).symm
  U_exact a e h := (eround_val m h).symm
  neg _ a h := by cases h
  addDown _ _ _ _ h1 h2 ok := (add_rounds m h1 h2 ok).inMode
  addUp _ _ _ _ h1 h2 ok := (add_rounds m h1 h2 ok).inMode
  subDown _ _ _ _ h1 h2 ok := (sub_rounds m h1 h2 ok).inMode
  subUp _ _ _ _ h1 h2 ok := (sub_rounds m h1 h2 ok).inMode
  mulDown _ _ _ _ h1 h2 ok := (mul_rounds m h1 h2 ok).inMode
  mulUp _ _ _ _ h1 h2 ok := (mul_rounds m h1 h2 ok).inMode

theorem exact_div : DivLaws True (InMode f m) (InMode f m) (exactArith m lib) where
  divDown _ _ _ _ h1 h2 ok := (div_rounds m h1 h2 ok).inMode
  divUp _ _ _ _ h1 h2 ok := (div_rounds m h1 h2 ok).inMode

theorem exact_sqrt : SqrtLaws True (InMode f m) (InMode f m) (exactArith m lib) where
  sqrtDown _ _ h h0 := (sqrt_rounds m h h0).inMode
  sqrtUp _ _ h h0 := (sqrt_rounds m h h0).inMode

theorem RoundsTo.eq {s c : ℝ} (h : RoundsTo f m s c) : (c : EReal) = eround f m s :=
  Option.some.inj (h.symm.trans (eround_rnd m false s))

theorem Rounds.roundsTo {e c : ℝ} {t : Fl f} (h : Rounds f m (e : EReal) t) (ht : val t = some (c : EReal)) : RoundsTo f m e c := by
  obtain ⟨z, hz, h⟩ := h
  unfold RoundsTo
  rw [eround_rnd, ← h.eq, ← hz, ht]

theorem RoundsTo.of_val {t : Fl f} {e c : ℝ} (ht : val t = some (c : EReal)) (h : c = e) : RoundsTo f m e c := by
  subst h
  exact (Rounds.exact ht).roundsTo ht

theorem RoundsTo.faithful {s c : ℝ} (h : RoundsTo f m s c) : Faithful (Fl f) s c := by
  obtain ⟨z, hz, h'⟩ := rnd_rounds (f := f) m false s
  have e : (c : EReal) = z := h.eq.trans h'.eq.symm
  exact fun w hw => ⟨fun hl => e ▸ h'.lo w hw hl, fun hu => e ▸ h'.up w hw hu⟩

theorem Bnd.inMode {S : Set ℝ} {z : Itv (Fl f)} (h : Bnd (InMode f m) (InMode f m) S z) {s c : ℝ} (hs : s ∈ S)
    (hc : RoundsTo f m s c) : c ∈ γ z := by
  obtain ⟨l, u, e₁, e₂, h1, h2, h3, h4, rfl, rfl⟩ := h
  refine ⟨_, _, h1, h2, ?_, ?_⟩
  · rw [hc.eq]; exact eround_mono m (h3.1 ⟨s, hs, rfl⟩)
  · rw [hc.eq]; exact eround_mono m (h4.1 ⟨s, hs, rfl⟩)

theorem Bnd.point {S : Set ℝ} {z : Itv (Fl f)} (h : Bnd (InMode f m) (InMode f m) S z) {s c : ℝ} (hS : S ⊆ {s}) (hs : s ∈ S)
    (hc : RoundsTo f m s c) : γ z = {c} := by
  obtain ⟨l, u, e₁, e₂, h1, h2, h3, h4, rfl, rfl⟩ := h
  obtain rfl : S = {s} := subset_antisymm hS (singleton_subset_iff.2 hs)
  have E1 : E ({s} : Set ℝ) = {(s : EReal)} := by simp [E]
  rw [E1] at h3 h4
  rw [h3.unique isGLB_singleton, ← hc.eq] at h1
  rw [h4.unique isLUB_singleton, ← hc.eq] at h2
  ext r
  constructor
  · rintro ⟨l, u, k1, k2, k3, k4⟩
    cases h1.symm.trans k1; cases h2.symm.trans k2
    exact le_antisymm (EReal.coe_le_coe_iff.1 k4) (EReal.coe_le_coe_iff.1 k3)
  · rintro rfl; exact ⟨_, _, h1, h2, le_rfl, le_rfl⟩

theorem point_of_mem {z : Set ℝ} {s c : ℝ} (h : z ⊆ {s}) (hc : c ∈ z) : z = {c} := by
  obtain rfl : c = s := h hc
  exact subset_antisymm h (singleton_subset_iff.2 hc)

variable (V : Env (Fl f)) {x y : Itv (Fl f)} {t : Fl f}

/-- The mode-free policies of the exact kind in the mode `m`. -/
def Env.ppIn (V : Env (Fl f)) (m : RMode) : Policies Res (Fl f) := purePolicies (exactArith m V.lib) V.C

/-- What an operation on intervals `x` and `y` delivers if the operation on numbers is `Rel`, rounded in the mode `m`: an
interval with all results, and no more than the result for points. -/
def Out2 (f : Fmt) (m : RMode) (X Y : Set ℝ) (Rel : ℝ → ℝ → ℝ → Prop) (z : Itv (Fl f)) : Prop :=
  (∀ a ∈ X, ∀ b ∈ Y, ∀ r, Rel a b r → ∀ c, RoundsTo f m r c → c ∈ γ z) ∧
  ∀ a b, X = {a} → Y = {b} → (∀ r r', Rel a b r → Rel a b r' → r = r') → ∀ r, Rel a b r → ∀ c, RoundsTo f m r c → γ z = {c}

theorem Bnd.out2 {X Y S : Set ℝ} {Rel : ℝ → ℝ → ℝ → Prop} {z : Itv (Fl f)} (h : Bnd (InMode f m) (InMode f m) S z)
    (hS : ∀ r, r ∈ S ↔ ∃ a ∈ X, ∃ b ∈ Y, Rel a b r) : Out2 f m X Y Rel z :=
  ⟨fun a ha b hb r hr c hc => h.inMode ((hS r).2 ⟨a, ha, b, hb, hr⟩) hc, fun a b hX hY hu r hr c hc =>
    h.point (fun r' hr' => by
      obtain ⟨p, hp, q, hq, h⟩ := (hS r').1 hr'
      rw [hX] at hp; rw [hY] at hq; cases hp; cases hq
      exact hu _ _ h hr) ((hS r).2 ⟨a, hX ▸ rfl, b, hY ▸ rfl, hr⟩) hc⟩

theorem out2_of_eq {X Y : Set ℝ} {Rel : ℝ → ℝ → ℝ → Prop} {z : Itv (Fl f)} (h : ∀ r, r ∈ γ z ↔ ∃ a ∈ X, ∃ b ∈ Y, Rel a b r) :
    Out2 f m X Y Rel z := by
  have h1 : ∀ a ∈ X, ∀ b ∈ Y, ∀ r, Rel a b r → ∀ c, RoundsTo f m r c → c ∈ γ z :=
    fun a ha b hb r hr c hc => faithful_absorbs z r c ((h r).2 ⟨a, ha, b, hb, hr⟩) hc.faithful
  refine ⟨h1, fun a b hX hY hu r hr c hc => point_of_mem (s := r) (fun r' hr' => ?_) (h1 a (hX ▸ rfl) b (hY ▸ rfl) r hr c hc)⟩
  obtain ⟨p, hp, q, hq, h⟩ := (h r').1 hr'
  rw [hX] at hp; rw [hY] at hq; cases hp; cases hq
  exact hu _ _ h hr

theorem out2_hull {z : Itv (Fl f)} (e : LeastEnclosing z (γ x ∪ γ y)) : Out2 f m (γ x) (γ y) BinOp.hull.Rel z := by
  have h1 : ∀ a ∈ γ x, ∀ b ∈ γ y, ∀ r, BinOp.hull.Rel a b r → ∀ c, RoundsTo f m r c → c ∈ γ z := fun a ha b hb r hr c hc =>
    faithful_absorbs z r c (gamma_between (e.1 (.inl ha)) (e.1 (.inr hb)) hr.1 hr.2) hc.faithful
  refine ⟨h1, fun a b hX hY hu r hr c hc => point_of_mem (s := a) ?_ (h1 a (hX ▸ rfl) b (hY ▸ rfl) r hr c hc)⟩
  have hab : a = b := by
    have := hu (min a b) (max a b) ⟨le_rfl, min_le_max⟩ ⟨min_le_max, le_rfl⟩
    rcases le_total a b with h | h
    · rwa [min_eq_left h, max_eq_right h] at this
    · rw [min_eq_right h, max_eq_left h] at this; exact this.symm
  subst hab
  have := (e.2 x (by rw [hX, hY, union_self]))
  exact hX ▸ this

theorem mem_image2' {g : ℝ → ℝ → ℝ} {X Y : Set ℝ} (r : ℝ) : r ∈ image2 g X Y ↔ ∃ a ∈ X, ∃ b ∈ Y, r = g a b := by
  simp only [mem_image2, eq_comm]

theorem mem_quot {X Y : Set ℝ} (r : ℝ) : r ∈ quot X Y ↔ ∃ a ∈ X, ∃ b ∈ Y, b ≠ 0 ∧ r = a / b := by
  constructor
  · rintro ⟨a, ha, b, hb, h0, h⟩; exact ⟨a, ha, b, hb, h0, h⟩
  · rintro ⟨a, ha, b, hb, h0, h⟩; exact ⟨a, ha, b, hb, h0, h⟩

theorem gap_not_point {z : Itv (Fl f)} {p q : EReal} (h : Has z p q) (hg : DivGap p q) (a : ℝ) : γ z ≠ {a} := by
  intro e
  have ha : a ∈ γ z := e ▸ rfl
  have key : p = (a : EReal) ∧ q = (a : EReal) := by
    rw [h.gamma] at e ha
    have hp : p ≠ ⊥ := by
      rintro rfl
      have : a - 1 ∈ RI ⊥ q := ⟨bot_le, le_trans (by exact_mod_cast (by linarith : a - 1 ≤ a)) ha.2⟩
      rw [e] at this
      have : a - 1 = a := this
      linarith
    have hq : q ≠ ⊤ := by
      rintro rfl
      have : a + 1 ∈ RI p ⊤ := ⟨le_trans ha.1 (by exact_mod_cast (by linarith : a ≤ a + 1)), le_top⟩
      rw [e] at this
      have : a + 1 = a := this
      linarith
    lift p to ℝ using ⟨h.ne_top, hp⟩
    lift q to ℝ using ⟨hq, h.ne_bot⟩
    have k1 : p ∈ RI (p : EReal) q := ⟨le_rfl, h.le⟩
    have k2 : q ∈ RI (p : EReal) q := ⟨h.le, le_rfl⟩
    rw [e] at k1 k2
    exact ⟨by rw [show p = a from k1], by rw [show q = a from k2]⟩
  rw [key.1, key.2] at hg
  exact not_gap a hg

theorem BinOp.II_in (o : BinOp) (h : ∃ a ∈ γ x, ∃ b ∈ γ y, ∃ r, o.Rel a b r) :
    Post True (o.II (V.ppIn m) x y) (Out2 f m (γ x) (γ y) o.Rel) := by
  obtain ⟨a₀, ha, b₀, hb, r₀, hr⟩ := h
  have hx : (γ x).Nonempty := ⟨_, ha⟩
  have hy : (γ y).Nonempty := ⟨_, hb⟩
  obtain ⟨p, q, ix⟩ := has_of_nonempty hx
  obtain ⟨p', q', iy⟩ := has_of_nonempty hy
  cases o with
  | add => exact (addII_post exact_op V.chk ix iy).mono fun z hz => hz.out2 mem_image2'
  | sub => exact (subII_post exact_op V.chk ix iy).mono fun z hz => hz.out2 mem_image2'
  | mul => exact (mulII_post exact_op V.chk ix iy).mono fun z hz => hz.out2 mem_image2'
  | div =>
    have hne := fun h => hr.1 ((zero_bounds iy).1 h hb)
    by_cases hg : DivGap p q ∧ (p' = 0 ∨ q' = 0)
    · change Post True (divII (purePolicies _ V.C) x y) _
      rw [divII_gap (V.infLaws fl_inf) V.chk ix iy hne hg.1 hg.2]
      exact (whole_encl (V.infLaws fl_inf) (S := univ)).mono fun z hz => ⟨fun a ha b hb r h c hc => hz trivial,
        fun a b h => absurd h (gap_not_point ix hg.1 a)⟩
    · exact (divII_post exact_op exact_div (V.infLaws fl_inf) V.chk ix iy hne hg).mono fun z hz => hz.out2 mem_quot
  | min =>
    obtain ⟨z, h, e⟩ := C29_min V hx hy
    exact Post.of_ok ⟨z, h, out2_of_eq fun r => by rw [e]; exact mem_image2' r⟩
  | max =>
    obtain ⟨z, h, e⟩ := C29_max V hx hy
    exact Post.of_ok ⟨z, h, out2_of_eq fun r => by rw [e]; exact mem_image2' r⟩
  | hull =>
    obtain ⟨z, h, e⟩ := C24_hull V (.inl hx) (.inl hy) hx.inl
    exact Post.of_ok ⟨z, h, out2_hull e⟩

theorem BinOp.TI_in (o : BinOp) {a : ℝ} (ht : val t = some (a : EReal)) (h : ∃ b ∈ γ y, ∃ r, o.Rel a b r) :
    Post True (o.TI (V.ppIn m) t y) (Out2 f m {a} (γ y) o.Rel) := by
  obtain ⟨b₀, hb, r₀, hr⟩ := h
  have hy : (γ y).Nonempty := ⟨_, hb⟩
  obtain ⟨_, _, iy⟩ := has_of_nonempty hy
  cases o with
  | add => exact (addTI_post exact_op V.chk ht iy).mono fun z hz => hz.out2 mem_image2'
  | sub => exact (subTI_post exact_op V.chk ht iy).mono fun z hz => hz.out2 mem_image2'
  | mul => exact (mulTI_post exact_op V.chk ht iy).mono fun z hz => hz.out2 mem_image2'
  | div =>
    have hne := fun h => hr.1 ((zero_bounds iy).1 h hb)
    exact (divTI_post exact_op exact_div (V.infLaws fl_inf) V.chk ht iy hne).mono fun z hz => hz.out2 mem_quot
  | min =>
    obtain ⟨z, h, e⟩ := (C29_min_num V hy ht).2
    exact Post.of_ok ⟨z, h, out2_of_eq fun r => by rw [e]; simp [BinOp.Rel, eq_comm]⟩
  | max =>
    obtain ⟨z, h, e⟩ := (C29_max_num V hy ht).2
    exact Post.of_ok ⟨z, h, out2_of_eq fun r => by rw [e]; simp [BinOp.Rel, eq_comm]⟩
  | hull =>
    obtain ⟨z, h, e⟩ := (C24_hull_num V (.inl hy) ht).2
    rw [← gamma_single ht] at e ⊢
    exact Post.of_ok ⟨z, h, out2_hull e⟩

theorem BinOp.IT_in (o : BinOp) {b : ℝ} (ht : val t = some (b : EReal)) (h : ∃ a ∈ γ x, ∃ r, o.Rel a b r) :
    Post True (o.IT (V.ppIn m) x t) (Out2 f m (γ x) {b} o.Rel) := by
  obtain ⟨a₀, ha, r₀, hr⟩ := h
  have hx : (γ x).Nonempty := ⟨_, ha⟩
  obtain ⟨_, _, ix⟩ := has_of_nonempty hx
  cases o with
  | add => exact (addIT_post exact_op V.chk ht ix).mono fun z hz => hz.out2 mem_image2'
  | sub => exact (subIT_post exact_op V.chk ht ix).mono fun z hz => hz.out2 mem_image2'
  | mul => exact (mulIT_post exact_op V.chk ht ix).mono fun z hz => hz.out2 mem_image2'
  | div => exact (divIT_post exact_div V.chk ix ht hr.1).mono fun z hz => hz.out2 mem_quot
  | min =>
    obtain ⟨z, h, e⟩ := (C29_min_num V hx ht).1
    exact Post.of_ok ⟨z, h, out2_of_eq fun r => by rw [e]; simp [BinOp.Rel, eq_comm]⟩
  | max =>
    obtain ⟨z, h, e⟩ := (C29_max_num V hx ht).1
    exact Post.of_ok ⟨z, h, out2_of_eq fun r => by rw [e]; simp [BinOp.Rel, eq_comm]⟩
  | hull =>
    obtain ⟨z, h, e⟩ := (C24_hull_num V (.inl hx) ht).1
    rw [← gamma_single ht] at e ⊢
    exact Post.of_ok ⟨z, h, out2_hull e⟩

/-- The same for one operand. -/
def Out1 (f : Fmt) (m : RMode) (X : Set ℝ) (Rel : ℝ → ℝ → Prop) (z : Itv (Fl f)) : Prop :=
  (∀ a ∈ X, ∀ r, Rel a r → ∀ c, RoundsTo f m r c → c ∈ γ z) ∧
  ∀ a, X = {a} → (∀ r r', Rel a r → Rel a r' → r = r') → ∀ r, Rel a r → ∀ c, RoundsTo f m r c → γ z = {c}

theorem Out2.out1 {X : Set ℝ} {Rel : ℝ → ℝ → Prop} {z : Itv (Fl f)} (h : Out2 f m X {0} (fun a _ => Rel a) z) : Out1 f m X Rel z :=
  ⟨fun a ha r hr c hc => h.1 a ha 0 rfl r hr c hc, fun a hX hu r hr c hc => h.2 a 0 hX rfl hu r hr c hc⟩

theorem Bnd.out1 {X S : Set ℝ} {Rel : ℝ → ℝ → Prop} {z : Itv (Fl f)} (h : Bnd (InMode f m) (InMode f m) S z)
    (hS : ∀ r, r ∈ S ↔ ∃ a ∈ X, Rel a r) : Out1 f m X Rel z := (h.out2 fun r => by rw [hS]; simp).out1

theorem out1_of_eq {X : Set ℝ} {Rel : ℝ → ℝ → Prop} {z : Itv (Fl f)} (h : ∀ r, r ∈ γ z ↔ ∃ a ∈ X, Rel a r) : Out1 f m X Rel z :=
  (out2_of_eq fun r => by rw [h]; simp).out1

theorem UnOp.I_in (o : UnOp) (h : ∃ a ∈ γ x, ∃ r, o.Rel a r) : Post True (o.I (V.ppIn m) x) (Out1 f m (γ x) o.Rel) := by
  obtain ⟨a₀, ha, r₀, hr⟩ := h
  have hx : (γ x).Nonempty := ⟨_, ha⟩
  obtain ⟨_, _, ix⟩ := has_of_nonempty hx
  have hneg : ∀ a : Fl f, Num.neg a ≠ none := fun a h => by cases h
  cases o with
  | pos => exact Post.of_ok ⟨x, rfl, out1_of_eq fun r => by simp [UnOp.Rel]⟩
  | neg =>
    obtain ⟨z, h, e⟩ := C02_neg V hneg hx
    exact Post.of_ok ⟨z, h, out1_of_eq fun r => by rw [e]; rfl⟩
  | abs =>
    obtain ⟨z, h, e⟩ := C28_abs V hneg hx
    exact Post.of_ok ⟨z, h, out1_of_eq fun r => by rw [e]; simp [UnOp.Rel, eq_comm]⟩
  | square => exact (squareI_post exact_op V.chk ix).mono fun z hz => hz.out1 fun r => by simp [UnOp.Rel, eq_comm]
  | sqrt =>
    exact (sqrtI_post exact_op exact_sqrt V.chk ix (nonneg_upper ix ⟨a₀, ha, hr.1⟩)).mono fun z hz =>
      hz.out1 fun r => by simp [UnOp.Rel, eq_comm, and_assoc]
  | inv =>
    have h1 : val (Num.lit 1 : Fl f) = some ((1 : ℝ) : EReal) := by rw [val_one]; rfl
    have hne := fun h => hr.1 ((zero_bounds ix).1 h ha)
    change Post True (multInv (V.ppIn m) x) _
    unfold Env.ppIn
    rw [multInv_eq V.chk ix]
    exact (divTI_post exact_op exact_div (V.infLaws fl_inf) V.chk h1 ix hne).mono fun z hz =>
      hz.out1 fun r => by rw [mem_quot]; simp [UnOp.Rel]

/-! ## Evaluation with plain numbers -/

theorem div_inMode {a b : Fl f} {x y c : ℝ} (ha : val a = some (x : EReal)) (hb : val b = some (y : EReal))
    (h : a.div m b = t) (ht : val t = some (c : EReal)) : y ≠ 0 ∧ RoundsTo f m (x / y) c := by
  have hy := (div_finite ha hb h ht).1
  have := div_rounds m ha hb ⟨by exact_mod_cast hy, .inl ⟨EReal.coe_ne_bot x, EReal.coe_ne_top x⟩⟩
  rw [h, ← EReal.coe_div] at this
  exact ⟨hy, this.roundsTo ht⟩

theorem UnOp.plain_in {o : UnOp} {a : Fl f} {x c : ℝ} (ha : val a = some (x : EReal))
    (h : o.plain m a = some t) (ht : val t = some (c : EReal)) : ∃ s, o.Rel x s ∧ RoundsTo f m s c := by
  have ex : ∀ {s : ℝ}, Faithful (Fl f) s c → Representable (Fl f) s → RoundsTo f m s c := fun h hs =>
    .of_val ht (le_antisymm (EReal.coe_le_coe_iff.1 ((h _ hs).2 le_rfl)) (EReal.coe_le_coe_iff.1 ((h _ hs).1 le_rfl)))
  have hn : Representable (Fl f) ((-x : ℝ) : EReal) := ⟨a.neg, by rw [fl_val_neg, ha]; rfl⟩
  cases o with
  | pos => obtain ⟨s, rfl, k⟩ := UnOp.plain_faithful ha h ht; exact ⟨_, rfl, ex k ⟨a, ha⟩⟩
  | neg => obtain ⟨s, rfl, k⟩ := UnOp.plain_faithful ha h ht; exact ⟨_, rfl, ex k hn⟩
  | abs =>
    obtain ⟨s, rfl, k⟩ := UnOp.plain_faithful ha h ht
    exact ⟨_, rfl, ex k (by rcases abs_choice x with e | e <;> rw [e]; exacts [⟨a, ha⟩, hn])⟩
  | square =>
    refine ⟨x ^ 2, rfl, ?_⟩
    have := mul_rounds m ha ha (fin_mulOk x x)
    rw [Option.some.inj h, ← EReal.coe_mul, ← sq] at this
    exact this.roundsTo ht
  | sqrt =>
    have hx := (sqrt_finite ha (Option.some.inj h) ht).1
    have := sqrt_rounds m ha (by exact_mod_cast hx)
    rw [show a.sqrt m = t from Option.some.inj h] at this
    exact ⟨_, ⟨hx, rfl⟩, this.roundsTo ht⟩
  | inv =>
    have h1 : val (Num.lit 1 : Fl f) = some ((1 : ℝ) : EReal) := by rw [val_one]; rfl
    obtain ⟨k1, k2⟩ := div_inMode h1 ha (Option.some.inj h) ht
    exact ⟨_, ⟨k1, rfl⟩, by rwa [one_div] at k2⟩

theorem BinOp.plain_in {o : BinOp} {a b : Fl f} {x y c : ℝ} (ha : val a = some (x : EReal))
    (hb : val b = some (y : EReal)) (h : o.plain m a b = some t) (ht : val t = some (c : EReal)) :
    ∃ s, o.Rel x y s ∧ RoundsTo f m s c := by
  have ex : ∀ {s : ℝ}, Faithful (Fl f) s c → Representable (Fl f) s → RoundsTo f m s c := fun h hs =>
    .of_val ht (le_antisymm (EReal.coe_le_coe_iff.1 ((h _ hs).2 le_rfl)) (EReal.coe_le_coe_iff.1 ((h _ hs).1 le_rfl)))
  cases o with
  | add =>
    have := add_rounds m ha hb (fin_addOk x y)
    rw [Option.some.inj h, ← EReal.coe_add] at this
    exact ⟨_, rfl, this.roundsTo ht⟩
  | sub =>
    have := sub_rounds m ha hb (fin_subOk x y)
    rw [Option.some.inj h, ← EReal.coe_sub] at this
    exact ⟨_, rfl, this.roundsTo ht⟩
  | mul =>
    have := mul_rounds m ha hb (fin_mulOk x y)
    rw [Option.some.inj h, ← EReal.coe_mul] at this
    exact ⟨_, rfl, this.roundsTo ht⟩
  | div => exact (div_inMode ha hb (Option.some.inj h) ht).elim fun h1 h2 => ⟨_, ⟨h1, rfl⟩, h2⟩
  | min =>
    obtain ⟨s, rfl, k⟩ := BinOp.plain_faithful ha hb h ht
    exact ⟨_, rfl, ex k (by rcases min_choice x y with e | e <;> rw [e]; exacts [⟨a, ha⟩, ⟨b, hb⟩])⟩
  | max =>
    obtain ⟨s, rfl, k⟩ := BinOp.plain_faithful ha hb h ht
    exact ⟨_, rfl, ex k (by rcases max_choice x y with e | e <;> rw [e]; exacts [⟨a, ha⟩, ⟨b, hb⟩])⟩
  | hull => cases h

/-- What a machine evaluates in one mode is a value of the formula with the results rounded in this mode. -/
theorem Expr.machineIn_rounded {ρ : ℕ → Fl f} {v : ℕ → ℝ} (hv : ∀ i r, val (ρ i) = some ((r : ℝ) : EReal) → v i = r)
    (e : Expr (Fl f)) : ∀ {t : Fl f}, e.MachineIn m ρ t → ∃ r : ℝ, val t = some (r : EReal) ∧ e.Rounded (RoundsTo f m) v r := by
  induction e with
  | var i => rintro _ ⟨rfl, r, h⟩; exact ⟨r, h, (hv i r h).symm⟩
  | num c => rintro _ ⟨rfl, r, h⟩; exact ⟨r, h, h⟩
  | un o e ih =>
    rintro t ⟨a, h1, h2, r, h3⟩
    obtain ⟨x, hx, hr⟩ := ih h1
    obtain ⟨s, k1, k2⟩ := UnOp.plain_in hx h2 h3
    exact ⟨r, h3, x, s, hr, k1, k2⟩
  | bin o e₁ e₂ ih₁ ih₂ =>
    rintro t ⟨a, b, h1, h1', h2, r, h3⟩
    obtain ⟨x, hx, hr⟩ := ih₁ h1
    obtain ⟨y, hy, hr'⟩ := ih₂ h1'
    obtain ⟨s, k1, k2⟩ := BinOp.plain_in hx hy h2 h3
    exact ⟨r, h3, x, y, s, hr, hr', k1, k2⟩
  | binL o a e ih =>
    rintro t ⟨b, ⟨x, hx⟩, h1, h2, r, h3⟩
    obtain ⟨y, hy, hr⟩ := ih h1
    obtain ⟨s, k1, k2⟩ := BinOp.plain_in hx hy h2 h3
    exact ⟨r, h3, x, y, s, hx, hr, k1, k2⟩
  | binR o e b ih =>
    rintro t ⟨a, ⟨y, hy⟩, h1, h2, r, h3⟩
    obtain ⟨x, hx, hr⟩ := ih h1
    obtain ⟨s, k1, k2⟩ := BinOp.plain_in hx hy h2 h3
    exact ⟨r, h3, x, y, s, hr, hy, k1, k2⟩
  | pow e k ih => exact fun h => h.elim
  | inter e₁ e₂ ih₁ ih₂ => exact fun h => h.elim
  | fn g e ih => exact fun h => h.elim

/-! ## Evaluation of expressions -/

theorem UnOp.Rel.unique {o : UnOp} {a r r' : ℝ} (h : o.Rel a r) (h' : o.Rel a r') : r = r' := by
  cases o
  case sqrt => exact h.2.trans h'.2.symm
  case inv => exact h.2.trans h'.2.symm
  all_goals exact Eq.trans h h'.symm

theorem BinOp.Rel.unique {o : BinOp} (ho : o ≠ .hull) {a b r r' : ℝ} (h : o.Rel a b r) (h' : o.Rel a b r') : r = r' := by
  cases o
  case hull => exact absurd rfl ho
  case div => exact h.2.trans h'.2.symm
  all_goals exact Eq.trans h h'.symm

variable {I J : Inv V.ctl.W} {P : Policies (M V.ctl.W) (Fl f)}

theorem Sim.bind_ok {W : Type} {I : Inv W} {α β : Type} {a : M W α} {x : α} {g : α → M W β} {r : Res β}
    (ha : Sim I a (.ok x)) (hg : Sim I (g x) r) : Sim I (a >>= g) r := by
  intro s h
  obtain ⟨h1, h2, h3⟩ := ha s h
  change (M.bind a g s).1 = _ ∧ I.Rel _ (M.bind a g s).2.cw ∧ (∀ x, _ → I.Pre (M.bind a g s).2.cw)
  unfold M.bind
  rcases hs : a s with ⟨o, s'⟩
  rw [hs] at h1 h2 h3
  dsimp only at h1 h2 h3
  subst h1
  obtain ⟨k1, k2, k3⟩ := hg s' (h3 x rfl)
  exact ⟨k1, I.trans _ _ _ h2 k2, k3⟩

theorem sim_pair_ok {W : Type} {I : Inv W} {α β γ : Type} {a : M W α} {b : M W β} {x : α} {y : β} {g : α × β → M W γ} {r : Res γ}
    (ha : Sim I a (.ok x)) (hb : Sim I b (.ok y)) (hg : Sim I (g (x, y)) r) : Sim I (pair a b >>= g) r := by
  have h := (ha.pair hb (OnlyBase.ok x) (OnlyBase.ok y))
  exact Sim.bind_ok h hg

/-- The result: it contains the rounded values at the points of the operands; if these are points, it is a point. -/
theorem Expr.eval_in (hP : PSim I J P (exactArith m V.lib) V.C) (K : PiConst (Fl f)) (fuel : ℕ) (ρ : ℕ → Itv (Fl f))
    (e : Expr (Fl f)) (hs : e.arithOnly = true) (hd : ∃ v r, (∀ i, v i ∈ γ (ρ i)) ∧ e.Rounded (RoundsTo f m) v r) :
    ∃ z, (∀ v r, (∀ i, v i ∈ γ (ρ i)) → e.Rounded (RoundsTo f m) v r → r ∈ γ z) ∧
      (e.oneValued = true → ∀ v, (∀ i, γ (ρ i) = {v i}) → ∀ r, e.Rounded (RoundsTo f m) v r → γ z = {r}) ∧
      Sim I (e.eval K fuel P ρ) (.ok z) := by
  induction e with
  | var i => exact ⟨ρ i, fun v r hv hr => hr ▸ hv i, fun _ v hv r hr => by rw [hv i, show r = v i from hr], Sim.pure _⟩
  | num t =>
    obtain ⟨v, r₀, hv, hr⟩ := hd
    obtain ⟨z, hz, -, -, e⟩ := C36_num V hr
    have hu : ∀ r : ℝ, val t = some (r : EReal) → r = r₀ := fun r h => EReal.coe_eq_coe_iff.1 (Option.some.inj (h.symm.trans hr))
    refine ⟨z, fun v r hv hr' => ?_, fun _ v hv r hr' => ?_, ?_⟩
    · rw [e]; exact hu r hr'
    · rw [e, hu r hr']
    · unfold Expr.eval; rw [hP.chk, ← hz]; exact Sim.lift _
  | un o e ih =>
    obtain ⟨v, r₀, hv, a₀, s₀, hr, hr₀, -⟩ := hd
    obtain ⟨x, h1, h2, h3⟩ := ih hs ⟨v, a₀, hv, hr⟩
    obtain ⟨z, hz, k1, k2⟩ := (UnOp.I_in (m := m) V o ⟨a₀, h1 v a₀ hv hr, s₀, hr₀⟩).ok_of
    exact ⟨z, fun v r hv ⟨a, s, ha, h, hr⟩ => k1 a (h1 v a hv ha) s h r hr, fun hp v hv r ⟨a, s, ha, h, hr⟩ =>
      k2 a (h2 hp v hv a ha) (fun _ _ h h' => h.unique h') s h r hr, h3.bind_ok (hz ▸ UnOp.I_sim hP o x)⟩
  | pow e k ih => cases hs
  | bin o e₁ e₂ ih₁ ih₂ =>
    obtain ⟨hs₁, hs₂⟩ := Bool.and_eq_true_iff.1 (show (e₁.arithOnly && e₂.arithOnly) = true from hs)
    obtain ⟨v, r₀, hv, a₀, b₀, s₀, hr₁, hr₂, hr₀, -⟩ := hd
    obtain ⟨x, h1, h2, h3⟩ := ih₁ hs₁ ⟨v, a₀, hv, hr₁⟩
    obtain ⟨y, h1', h2', h3'⟩ := ih₂ hs₂ ⟨v, b₀, hv, hr₂⟩
    obtain ⟨z, hz, k1, k2⟩ := (BinOp.II_in (m := m) V o ⟨a₀, h1 v a₀ hv hr₁, b₀, h1' v b₀ hv hr₂, s₀, hr₀⟩).ok_of
    refine ⟨z, fun v r hv ⟨a, b, s, ha, hb, h, hr⟩ => k1 a (h1 v a hv ha) b (h1' v b hv hb) s h r hr,
      fun hp v hv r ⟨a, b, s, ha, hb, h, hr⟩ => ?_, sim_pair_ok h3 h3' (hz ▸ BinOp.II_sim hP o x y)⟩
    simp only [Expr.oneValued, Bool.and_eq_true, bne_iff_ne] at hp
    exact k2 a b (h2 hp.1.2 v hv a ha) (h2' hp.2 v hv b hb) (fun _ _ h h' => h.unique hp.1.1 h') s h r hr
  | binL o t e ih =>
    obtain ⟨v, r₀, hv, a₀, b₀, s₀, ht, hr, hr₀, -⟩ := hd
    obtain ⟨x, h1, h2, h3⟩ := ih hs ⟨v, b₀, hv, hr⟩
    obtain ⟨z, hz, k1, k2⟩ := (BinOp.TI_in (m := m) V o ht ⟨b₀, h1 v b₀ hv hr, s₀, hr₀⟩).ok_of
    have hu : ∀ r : ℝ, val t = some (r : EReal) → r = a₀ := fun r h => EReal.coe_eq_coe_iff.1 (Option.some.inj (h.symm.trans ht))
    refine ⟨z, fun v r hv ⟨a, b, s, ha, hb, h, hr⟩ => k1 a (hu a ha) b (h1 v b hv hb) s h r hr,
      fun hp v hv r ⟨a, b, s, ha, hb, h, hr⟩ => ?_, h3.bind_ok (hz ▸ BinOp.TI_sim hP o t x)⟩
    simp only [Expr.oneValued, Bool.and_eq_true, bne_iff_ne] at hp
    exact k2 a b (by rw [hu a ha]) (h2 hp.2 v hv b hb) (fun _ _ h h' => h.unique hp.1 h') s h r hr
  | binR o e t ih =>
    obtain ⟨v, r₀, hv, a₀, b₀, s₀, hr, ht, hr₀, -⟩ := hd
    obtain ⟨x, h1, h2, h3⟩ := ih hs ⟨v, a₀, hv, hr⟩
    obtain ⟨z, hz, k1, k2⟩ := (BinOp.IT_in (m := m) V o ht ⟨a₀, h1 v a₀ hv hr, s₀, hr₀⟩).ok_of
    have hu : ∀ r : ℝ, val t = some (r : EReal) → r = b₀ := fun r h => EReal.coe_eq_coe_iff.1 (Option.some.inj (h.symm.trans ht))
    refine ⟨z, fun v r hv ⟨a, b, s, ha, hb, h, hr⟩ => k1 a (h1 v a hv ha) b (hu b hb) s h r hr,
      fun hp v hv r ⟨a, b, s, ha, hb, h, hr⟩ => ?_, h3.bind_ok (hz ▸ BinOp.IT_sim hP o x t)⟩
    simp only [Expr.oneValued, Bool.and_eq_true, bne_iff_ne] at hp
    exact k2 a b (h2 hp.2 v hv a ha) (by rw [hu b hb]) (fun _ _ h h' => h.unique hp.1 h') s h r hr
  | inter e₁ e₂ ih₁ ih₂ =>
    obtain ⟨hs₁, hs₂⟩ := Bool.and_eq_true_iff.1 (show (e₁.arithOnly && e₂.arithOnly) = true from hs)
    obtain ⟨v, r₀, hv, s₀, hr₁, hr₂, -⟩ := hd
    obtain ⟨x, h1, h2, h3⟩ := ih₁ hs₁ ⟨v, s₀, hv, hr₁⟩
    obtain ⟨y, h1', h2', h3'⟩ := ih₂ hs₂ ⟨v, s₀, hv, hr₂⟩
    obtain ⟨z, hz, e⟩ := C23_intersect V ⟨s₀, h1 v s₀ hv hr₁, h1' v s₀ hv hr₂⟩
    have hmem : ∀ v r, (∀ i, v i ∈ γ (ρ i)) → (Expr.inter e₁ e₂).Rounded (RoundsTo f m) v r → r ∈ γ z :=
      fun v r hv ⟨s, ha, hb, hr⟩ => faithful_absorbs z s r (by rw [e]; exact ⟨h1 v s hv ha, h1' v s hv hb⟩) hr.faithful
    refine ⟨z, hmem, fun hp v hv r ⟨s, ha, hb, hr⟩ => ?_, sim_pair_ok h3 h3' (by rw [hP.chk, ← hz]; exact Sim.lift _)⟩
    simp only [Expr.oneValued, Bool.and_eq_true] at hp
    refine point_of_mem (s := s) ?_ (hmem v r (fun i => hv i ▸ rfl) ⟨s, ha, hb, hr⟩)
    rw [e, h2 hp.1 v hv s ha]; exact inter_subset_left
  | fn g e ih => cases hs
end
end BI
