import Verif.Proofs.ExZeros
import Verif.Props.Examples
import Mathlib.Analysis.Calculus.Deriv.Pow
import Mathlib.Analysis.Calculus.Deriv.Mul
import Mathlib.Data.Rat.Lemmas
/-!
# C48: the example programs that look for zeros

* examples/newton-raphson.cpp: `C48_newton1`, `C48_newton2`, and for its function `C48_newton1_quintic`,
  `C48_newton2_quintic`
* examples/findroot_demo.cpp: `C48_find_zeros1`, `C48_find_zeros2`, `C48_find_zeros1_rat`, `C48_find_zeros2_rat` -/

namespace BI
open Set

/-! ## newton-raphson.cpp -/

section
variable {f : Fmt} (V : Env (Fl f)) {N : Newton (M V.ctl.W) (Fl f)} {F F' : ℝ → ℝ} {a b mw al : ℝ} {xs : Itv (Fl f)}

theorem isolates_of {S : Set ℝ} {R : List (Itv (Fl f))} (hS : ∀ r ∈ Icc a b, F r = 0 → r ∈ S) (h : LInv S a b mw [] R) :
    Isolates F (Icc a b) a b mw R := by
  refine ⟨fun r hr h0 => ?_, fun z hz => ⟨(h.good z hz).1.nonempty, (h.good z hz).1.subset, (h.good z hz).2⟩⟩
  obtain ⟨z, hz, hr⟩ := h.cov r (hS r hr h0)
  rcases hz with hz | hz
  · cases hz
  · exact ⟨z, hz, hr⟩

theorem newton_start (ha : val xs.lower = some (a : EReal)) (hb : val xs.upper = some (b : EReal)) (hab : a ≤ b) :
    LInv {r | r ∈ Icc a b ∧ F r = 0} a b mw [xs] [] := by
  refine ⟨fun z hz => ?_, fun z hz => (by cases hz), fun r hr => ⟨xs, .inl (by simp), ?_⟩⟩
  · rw [List.mem_singleton.1 hz]; exact ⟨a, b, ha, hb, le_rfl, hab, le_rfl⟩
  · rw [box_gamma ha hb hab]; exact hr.1

/-- The first method of newton-raphson.cpp, with the rounding object of `main` around it: if it returns, the results are
narrow parts of the start interval that contain all zeros. It may run forever (no fuel suffices), or, with policies that
forbid empty intervals, throw; the latter only if the derivative vanishes at a number of the base type. The control word
is restored in all cases. -/
theorem C48_newton1 (hk : V.kind ≠ .exact) (hN : NewtonOk V N F F' a b mw) (hα : val N.alpha = some (al : EReal)) (hα' : |al| ≤ 1)
    (ha : val xs.lower = some (a : EReal)) (hb : val xs.upper = some (b : EReal)) (hab : a ≤ b)
    (ha' : |a| ≤ (maxFin f : ℝ) / 2) (hb' : |b| ≤ (maxFin f : ℝ) / 2) (n : ℕ) (s : V.State) (hs : V.Valid s) :
    (V.P.rnd.scope (newton1 V.P.unprot N n [xs] []) s).2.cw = s.cw ∧
    match (V.P.rnd.scope (newton1 V.P.unprot N n [xs] []) s).1 with
    | .ok res => Isolates F (Icc a b) a b mw res
    | .error e => e = .fuel ∨
        (e = .emptyCreated ∧ V.checks.forbidsEmpty = true ∧ ∃ t ∈ Icc a b, Representable (Fl f) (t : EReal) ∧ F' t = 0) := by
  have h := newton1_tri (S := {r | r ∈ Icc a b ∧ F r = 0}) hk hN (alphaOk_of hα hα') ha' hb' (fun r hr => hr.2) n [xs] []
    (newton_start ha hb hab)
  obtain ⟨h1, h2⟩ := tri_scope hk h s hs
  refine ⟨h1.symm, ?_⟩
  cases ho : (V.P.rnd.scope (newton1 V.P.unprot N n [xs] []) s).1 with
  | ok R => rw [ho] at h2; exact isolates_of (S := {r | r ∈ Icc a b ∧ F r = 0}) (fun r hr h0 => ⟨hr, h0⟩) h2.1
  | error e => rw [ho] at h2; exact h2

/-- The second method, for policies that allow empty intervals. -/
theorem C48_newton2 (hk : V.kind ≠ .exact) (hE : V.checks.forbidsEmpty = false) (hN : NewtonOk V N F F' a b mw)
    (hα : val N.alpha = some (al : EReal)) (hα' : |al| ≤ 1)
    (ha : val xs.lower = some (a : EReal)) (hb : val xs.upper = some (b : EReal)) (hab : a ≤ b)
    (ha' : |a| ≤ (maxFin f : ℝ) / 2) (hb' : |b| ≤ (maxFin f : ℝ) / 2) (n : ℕ) (s : V.State) (hs : V.Valid s) :
    (V.P.rnd.scope (newton2 V.P.unprot N n [xs] []) s).2.cw = s.cw ∧
    match (V.P.rnd.scope (newton2 V.P.unprot N n [xs] []) s).1 with
    | .ok res => Isolates F (Icc a b) a b mw res
    | .error e => e = .fuel := by
  have h := newton2_tri (S := {r | r ∈ Icc a b ∧ F r = 0}) hk hE hN (alphaOk_of hα hα') ha' hb' (fun r hr => hr.2) n [xs] []
    (newton_start ha hb hab)
  obtain ⟨h1, h2⟩ := tri_scope hk h s hs
  refine ⟨h1.symm, ?_⟩
  cases ho : (V.P.rnd.scope (newton2 V.P.unprot N n [xs] []) s).1 with
  | ok R => rw [ho] at h2; exact isolates_of (S := {r | r ∈ Icc a b ∧ F r = 0}) (fun r hr h0 => ⟨hr, h0⟩) h2.1
  | error e => rw [ho] at h2; exact h2

/-! ### The function of the program -/

theorem mulII_all {x y : Itv (Fl f)} {X : Set ℝ} {G H : ℝ → ℝ} (hV : V.Directed) (hX : X.Nonempty) (hx : ∀ t ∈ X, G t ∈ γ x)
    (hy : ∀ t ∈ X, H t ∈ γ y) : Post True (mulII V.pp x y) fun z => ∀ t ∈ X, G t * H t ∈ γ z := by
  obtain ⟨t, ht⟩ := hX
  obtain ⟨_, _, ix⟩ := has_of_mem (hx t ht)
  obtain ⟨_, _, iy⟩ := has_of_mem (hy t ht)
  have hA := hV.dir du_weak
  exact (mulII_post hA.op V.chk ix iy).mono fun z hz t ht => hz.encl hA.D_le hA.U_ge ⟨_, hx t ht, _, hy t ht, rfl⟩

theorem subIT_all {x : Itv (Fl f)} {c : Fl f} {X : Set ℝ} {G : ℝ → ℝ} {q : ℝ} (hV : V.Directed) (hX : X.Nonempty)
    (hx : ∀ t ∈ X, G t ∈ γ x) (hc : val c = some (q : EReal)) : Post True (subIT V.pp x c) fun z => ∀ t ∈ X, G t - q ∈ γ z := by
  obtain ⟨t, ht⟩ := hX
  obtain ⟨_, _, ix⟩ := has_of_mem (hx t ht)
  have hA := hV.dir du_weak
  exact (subIT_post hA.op V.chk hc ix).mono fun z hz t ht => hz.encl hA.D_le hA.U_ge ⟨_, hx t ht, q, rfl, rfl⟩

theorem addIT_all {x : Itv (Fl f)} {c : Fl f} {X : Set ℝ} {G : ℝ → ℝ} {q : ℝ} (hV : V.Directed) (hX : X.Nonempty)
    (hx : ∀ t ∈ X, G t ∈ γ x) (hc : val c = some (q : EReal)) : Post True (addIT V.pp x c) fun z => ∀ t ∈ X, G t + q ∈ γ z := by
  obtain ⟨t, ht⟩ := hX
  obtain ⟨_, _, ix⟩ := has_of_mem (hx t ht)
  have hA := hV.dir du_weak
  exact (addIT_post hA.op V.chk hc ix).mono fun z hz t ht => hz.encl hA.D_le hA.U_ge ⟨_, hx t ht, q, rfl, rfl⟩

private theorem mulTI_all {x : Itv (Fl f)} {c : Fl f} {X : Set ℝ} {G : ℝ → ℝ} {q : ℝ} (hV : V.Directed) (hX : X.Nonempty)
    (hx : ∀ t ∈ X, G t ∈ γ x) (hc : val c = some (q : EReal)) : Post True (mulTI V.pp c x) fun z => ∀ t ∈ X, q * G t ∈ γ z := by
  obtain ⟨t, ht⟩ := hX
  obtain ⟨_, _, ix⟩ := has_of_mem (hx t ht)
  have hA := hV.dir du_weak
  exact (mulTI_post hA.op V.chk hc ix).mono fun z hz t ht => hz.encl hA.D_le hA.U_ge ⟨q, rfl, _, hx t ht, rfl⟩

theorem quintic_sim {W T : Type} [Num T] {I J : Inv W} {P : Policies (M W) T} {B : Arith Res T} {C : Checking T} (h : PSim I J P B C) (x : Itv T) :
    Sim I (quintic P x) (quintic (purePolicies B C) x) := by
  exact (subIT_sim h _ _).bind fun _ => (mulII_sim h _ _).bind fun _ => (subIT_sim h _ _).bind fun _ => (mulII_sim h _ _).bind fun _ =>
    (subIT_sim h _ _).bind fun _ => (mulII_sim h _ _).bind fun _ => (subIT_sim h _ _).bind fun _ => mulII_sim h _ _

theorem quinticD_sim {W T : Type} [Num T] {I J : Inv W} {P : Policies (M W) T} {B : Arith Res T} {C : Checking T} (h : PSim I J P B C)
    (c40 c105 c100 c24 : T) (x : Itv T) :
    Sim I (quinticD P c40 c105 c100 c24 x) (quinticD (purePolicies B C) c40 c105 c100 c24 x) := by
  exact (mulTI_sim h _ _).bind fun _ => (subIT_sim h _ _).bind fun _ => (mulII_sim h _ _).bind fun _ => (addIT_sim h _ _).bind fun _ =>
    (mulII_sim h _ _).bind fun _ => (subIT_sim h _ _).bind fun _ => (mulII_sim h _ _).bind fun _ => addIT_sim h _ _

/-- The polynomial of newton-raphson.cpp and its derivative. -/
def quinticF (t : ℝ) : ℝ := t * (t - 1) * (t - 2) * (t - 3) * (t - 4)
def quinticF' (t : ℝ) : ℝ := 5 * t ^ 4 - 40 * t ^ 3 + 105 * t ^ 2 - 100 * t + 24

private theorem lit_val (k : ℤ) (h : |k| ≤ 7) : val (Num.lit k : Fl f) = some ((k : ℝ) : EReal) := NumLaws.lit k h

theorem quintic_encl (hk : V.kind ≠ .exact) : Encloses V (quintic V.P.unprot) quinticF := by
  intro x hx
  have hV := Env.fl_directed V hk
  refine tri_inside (Tri.of_sim (quintic_sim (V.simU hk) x) (Post.toE ?_))
  have hid : ∀ t ∈ γ x, t ∈ γ x := fun _ h => h
  unfold quintic
  refine (subIT_all V hV hx hid (lit_val 1 (by decide))).bind fun x1 h1 => ?_
  refine (mulII_all V hV hx hid h1).bind fun y hy => ?_
  refine (subIT_all V hV hx hid (lit_val 2 (by decide))).bind fun x2 h2 => ?_
  refine (mulII_all V hV hx hy h2).bind fun y hy => ?_
  refine (subIT_all V hV hx hid (lit_val 3 (by decide))).bind fun x3 h3 => ?_
  refine (mulII_all V hV hx hy h3).bind fun y hy => ?_
  refine (subIT_all V hV hx hid (lit_val 4 (by decide))).bind fun x4 h4 => ?_
  refine (mulII_all V hV hx hy h4).mono fun y hy t ht => ?_
  have := hy t ht
  push_cast at this
  exact this

theorem quinticD_encl (hk : V.kind ≠ .exact) {c40 c105 c100 c24 : Fl f} (h40 : val c40 = some ((40 : ℝ) : EReal))
    (h105 : val c105 = some ((105 : ℝ) : EReal)) (h100 : val c100 = some ((100 : ℝ) : EReal)) (h24 : val c24 = some ((24 : ℝ) : EReal)) :
    Encloses V (quinticD V.P.unprot c40 c105 c100 c24) quinticF' := by
  intro x hx
  have hV := Env.fl_directed V hk
  refine tri_inside (Tri.of_sim (quinticD_sim (V.simU hk) c40 c105 c100 c24 x) (Post.toE ?_))
  have hid : ∀ t ∈ γ x, t ∈ γ x := fun _ h => h
  unfold quinticD
  refine (mulTI_all V hV hx hid (lit_val 5 (by decide))).bind fun y hy => ?_
  refine (subIT_all V hV hx hy h40).bind fun y hy => ?_
  refine (mulII_all V hV hx hy hid).bind fun y hy => ?_
  refine (addIT_all V hV hx hy h105).bind fun y hy => ?_
  refine (mulII_all V hV hx hy hid).bind fun y hy => ?_
  refine (subIT_all V hV hx hy h100).bind fun y hy => ?_
  refine (mulII_all V hV hx hy hid).bind fun y hy => ?_
  refine (addIT_all V hV hx hy h24).mono fun y hy t ht => ?_
  have := hy t ht
  push_cast at this
  have e : quinticF' t = (((5 * t - 40) * t + 105) * t - 100) * t + 24 := by unfold quinticF'; ring
  rw [e]; exact this

theorem quintic_deriv (t : ℝ) : HasDerivAt quinticF (quinticF' t) t := by
  have h : ∀ k : ℝ, HasDerivAt (fun t : ℝ => t - k) 1 t := fun k => (hasDerivAt_id t).sub_const k
  have := ((((hasDerivAt_id t).mul (h 1)).mul (h 2)).mul (h 3)).mul (h 4)
  have e : quinticF' t = ((((1 : ℝ) * (t - 1) + t * 1) * (t - 2) + t * (t - 1) * 1) * (t - 3) + t * (t - 1) * (t - 2) * 1) * (t - 4) +
      t * (t - 1) * (t - 2) * (t - 3) * 1 := by
    unfold quinticF'; ring
  rw [e]
  exact this

/-- The derivative has no rational zero. -/
theorem quinticF'_ne (q : ℚ) : quinticF' q ≠ 0 := by
  intro h
  have h1 : (10 * (q - 2) ^ 2 - 15) * (10 * (q - 2) ^ 2 - 15) = (145 : ℚ) := by
    have : (5 * q ^ 4 - 40 * q ^ 3 + 105 * q ^ 2 - 100 * q + 24 : ℚ) = 0 := by
      unfold quinticF' at h; exact_mod_cast h
    linear_combination 20 * this
  have h2 : IsSquare ((145 : ℕ) : ℚ) := ⟨_, by push_cast; exact h1.symm⟩
  rw [Rat.isSquare_natCast_iff] at h2
  obtain ⟨r, hr⟩ := h2
  have : r ≤ 12 := by nlinarith
  interval_cases r <;> omega

variable {c40 c105 c100 c24 mwT alT : Fl f}

/-- The functions and constants of newton-raphson.cpp. -/
noncomputable def quinticN (c40 c105 c100 c24 mwT alT : Fl f) : Newton (M V.ctl.W) (Fl f) :=
  ⟨quintic V.P.unprot, quinticD V.P.unprot c40 c105 c100 c24, mwT, alT⟩

theorem quintic_ok (hk : V.kind ≠ .exact) (h40 : val c40 = some ((40 : ℝ) : EReal))
    (h105 : val c105 = some ((105 : ℝ) : EReal)) (h100 : val c100 = some ((100 : ℝ) : EReal)) (h24 : val c24 = some ((24 : ℝ) : EReal))
    (hw : val mwT = some (mw : EReal)) : NewtonOk V (quinticN V c40 c105 c100 c24 mwT alT) quinticF quinticF' a b mw :=
  ⟨quintic_encl V hk, quinticD_encl V hk h40 h105 h100 h24, fun t _ => quintic_deriv t, hw⟩

/-- The first method on the polynomial of the program does not throw. -/
theorem C48_newton1_quintic (hk : V.kind ≠ .exact) (h40 : val c40 = some ((40 : ℝ) : EReal))
    (h105 : val c105 = some ((105 : ℝ) : EReal)) (h100 : val c100 = some ((100 : ℝ) : EReal)) (h24 : val c24 = some ((24 : ℝ) : EReal))
    (hw : val mwT = some (mw : EReal)) (hα : val alT = some (al : EReal)) (hα' : |al| ≤ 1)
    (ha : val xs.lower = some (a : EReal)) (hb : val xs.upper = some (b : EReal)) (hab : a ≤ b)
    (ha' : |a| ≤ (maxFin f : ℝ) / 2) (hb' : |b| ≤ (maxFin f : ℝ) / 2) (n : ℕ) (s : V.State) (hs : V.Valid s) :
    match (V.P.rnd.scope (newton1 V.P.unprot (quinticN V c40 c105 c100 c24 mwT alT) n [xs] []) s).1 with
    | .ok res => Isolates quinticF (Icc a b) a b mw res
    | .error e => e = .fuel := by
  have h := (C48_newton1 V (F := quinticF) (F' := quinticF') hk (quintic_ok V (alT := alT) hk h40 h105 h100 h24 hw) hα hα' ha hb hab ha' hb' n s hs).2
  cases ho : (V.P.rnd.scope (newton1 V.P.unprot (quinticN V c40 c105 c100 c24 mwT alT) n [xs] []) s).1 with
  | ok R => rw [ho] at h; exact h
  | error e =>
    rw [ho] at h
    rcases h with h | ⟨-, -, t, -, ⟨w, hw⟩, h0⟩
    · exact h
    · obtain ⟨q, -, rfl⟩ := Rep.of_val hw
      exact absurd h0 (quinticF'_ne q)

theorem C48_newton2_quintic (hk : V.kind ≠ .exact) (hE : V.checks.forbidsEmpty = false) (h40 : val c40 = some ((40 : ℝ) : EReal))
    (h105 : val c105 = some ((105 : ℝ) : EReal)) (h100 : val c100 = some ((100 : ℝ) : EReal)) (h24 : val c24 = some ((24 : ℝ) : EReal))
    (hw : val mwT = some (mw : EReal)) (hα : val alT = some (al : EReal)) (hα' : |al| ≤ 1)
    (ha : val xs.lower = some (a : EReal)) (hb : val xs.upper = some (b : EReal)) (hab : a ≤ b)
    (ha' : |a| ≤ (maxFin f : ℝ) / 2) (hb' : |b| ≤ (maxFin f : ℝ) / 2) (n : ℕ) (s : V.State) (hs : V.Valid s) :
    match (V.P.rnd.scope (newton2 V.P.unprot (quinticN V c40 c105 c100 c24 mwT alT) n [xs] []) s).1 with
    | .ok res => Isolates quinticF (Icc a b) a b mw res
    | .error e => e = .fuel :=
  (C48_newton2 V (F := quinticF) (F' := quinticF') hk hE (quintic_ok V (alT := alT) hk h40 h105 h100 h24 hw) hα hα' ha hb hab ha' hb' n s hs).2
end

/-! ## findroot_demo.cpp -/

section
variable {T : Type} [Num T] [Val T] (V : Env T)

/-- The function notices the points of `Z`: its value on an interval with such a point contains zero. -/
def Notices1 (f : Itv T → M V.ctl.W (Itv T)) (Z : Set ℝ) : Prop :=
  ∀ x, (γ x).Nonempty → V.Returns (f x) fun y => V.Proper y ∧ ((γ x ∩ Z).Nonempty → (0 : ℝ) ∈ γ y)

def Notices2 (f : Itv T → Itv T → M V.ctl.W (Itv T)) (Z : Set (ℝ × ℝ)) : Prop :=
  ∀ x y, (γ x).Nonempty → (γ y).Nonempty → V.Returns (f x y) fun z => V.Proper z ∧ ((γ x ×ˢ γ y ∩ Z).Nonempty → (0 : ℝ) ∈ γ z)

/-- The intervals cover the points of `Z` in `[a, b]`, and are narrow parts of it. -/
def Found1 (Z : Set ℝ) (a b e : ℝ) (res : List (Itv T)) : Prop :=
  (∀ r ∈ Z, r ∈ Icc a b → ∃ z ∈ res, r ∈ γ z) ∧
  ∀ z ∈ res, (γ z).Nonempty ∧ γ z ⊆ Icc a b ∧ ∀ r ∈ γ z, ∀ s ∈ γ z, s - r < e

def Found2 (Z : Set (ℝ × ℝ)) (a b c d e : ℝ) (res : List (Itv T × Itv T)) : Prop :=
  (∀ r ∈ Z, r.1 ∈ Icc a b → r.2 ∈ Icc c d → ∃ z ∈ res, r.1 ∈ γ z.1 ∧ r.2 ∈ γ z.2) ∧
  ∀ z ∈ res, (γ z.1).Nonempty ∧ γ z.1 ⊆ Icc a b ∧ (γ z.2).Nonempty ∧ γ z.2 ⊆ Icc c d ∧
    (∀ r ∈ γ z.1, ∀ s ∈ γ z.1, s - r < e) ∧ ∀ r ∈ γ z.2, ∀ s ∈ γ z.2, s - r < e

variable {V} [NumLaws T] {a b c d e : ℝ} {Term : Prop} {D : Itv T → ℕ} {wd : Itv T → EReal} {eps : T} {xs ys : Itv T}

theorem found1 {f : Itv T → M V.ctl.W (Itv T)} {Z : Set ℝ} (hZ : ZData V eps e a b Term D wd) (hf : Notices1 V f Z)
    (ha : val xs.lower = some (a : EReal)) (hb : val xs.upper = some (b : EReal)) (hab : a ≤ b) (n : ℕ) (s : V.State) (hs : V.Valid s) :
    (findZeros1 V.P f eps n [xs] [] s).2.cw = s.cw ∧
    match (findZeros1 V.P f eps n [xs] [] s).1 with
    | .ok res => Found1 Z a b e res
    | .error err => err = .fuel ∧ (Term → n < turns (D xs)) := by
  have h := zeros1_tri hZ (Z := (· ∈ Z)) (fun x hx => (hf x hx).mono fun y hy => ⟨hy.1, fun r hr hz => hy.2 ⟨r, hr, hz⟩⟩) n
    {r | r ∈ Icc a b ∧ r ∈ Z} [xs] [] (fun r hr => hr.2)
    ⟨fun z hz => by rw [List.mem_singleton.1 hz]; exact ⟨a, b, ha, hb, le_rfl, hab, le_rfl⟩, fun z hz => (by cases hz),
      fun r hr => ⟨xs, .inl (by simp), by rw [box_gamma ha hb hab]; exact hr.1⟩⟩
  obtain ⟨h1, h2⟩ := h s hs
  refine ⟨h1.symm, ?_⟩
  cases ho : (findZeros1 V.P f eps n [xs] [] s).1 with
  | ok R =>
    rw [ho] at h2
    refine ⟨fun r hr hr' => ?_, fun z hz => ⟨(h2.1.good z hz).1.nonempty, (h2.1.good z hz).1.subset, (h2.1.good z hz).2⟩⟩
    obtain ⟨z, hz, h⟩ := h2.1.cov r ⟨hr', hr⟩
    rcases hz with hz | hz
    · cases hz
    · exact ⟨z, hz, h⟩
  | error err =>
    rw [ho] at h2
    simpa using h2

theorem found2 {f : Itv T → Itv T → M V.ctl.W (Itv T)} {Z : Set (ℝ × ℝ)} (hZ : ZData V eps e a b Term D wd)
    (hZ' : ZData V eps e c d Term D wd) (hf : Notices2 V f Z)
    (ha : val xs.lower = some (a : EReal)) (hb : val xs.upper = some (b : EReal)) (hab : a ≤ b)
    (hc : val ys.lower = some (c : EReal)) (hd : val ys.upper = some (d : EReal)) (hcd : c ≤ d) (n : ℕ) (s : V.State) (hs : V.Valid s) :
    (findZeros2 V.P f eps n [(xs, ys)] [] s).2.cw = s.cw ∧
    match (findZeros2 V.P f eps n [(xs, ys)] [] s).1 with
    | .ok res => Found2 Z a b c d e res
    | .error err => err = .fuel ∧ (Term → n < turns (D xs + D ys)) := by
  have h := zeros2_tri hZ hZ' (Z := (· ∈ Z))
    (fun x hx => (hf x.1 x.2 hx.1 hx.2).mono fun y hy => ⟨hy.1, fun r hr hz => hy.2 ⟨r, hr, hz⟩⟩) n
    {r | (r.1 ∈ Icc a b ∧ r.2 ∈ Icc c d) ∧ r ∈ Z} [(xs, ys)] [] (fun r hr => hr.2)
    ⟨fun z hz => by
        rw [List.mem_singleton.1 hz]; exact ⟨⟨a, b, ha, hb, le_rfl, hab, le_rfl⟩, ⟨c, d, hc, hd, le_rfl, hcd, le_rfl⟩⟩,
      fun z hz => (by cases hz),
      fun r hr => ⟨(xs, ys), .inl (by simp), by rw [box_gamma ha hb hab, box_gamma hc hd hcd]; exact hr.1⟩⟩
  obtain ⟨h1, h2⟩ := h s hs
  refine ⟨h1.symm, ?_⟩
  cases ho : (findZeros2 V.P f eps n [(xs, ys)] [] s).1 with
  | ok R =>
    rw [ho] at h2
    refine ⟨fun r hr hr1 hr2 => ?_, fun z hz => ?_⟩
    · obtain ⟨z, hz, h⟩ := h2.1.cov r ⟨⟨hr1, hr2⟩, hr⟩
      rcases hz with hz | hz
      · cases hz
      · exact ⟨z, hz, h⟩
    · obtain ⟨⟨g1, g2⟩, g3, g4⟩ := h2.1.good z hz
      exact ⟨g1.nonempty, g1.subset, g3.nonempty, g3.subset, g2, g4⟩
  | error err =>
    rw [ho] at h2
    simpa using h2
end

section
variable {f : Fmt} (V : Env (Fl f)) {a b c d e : ℝ} {eps : Fl f} {xs ys : Itv (Fl f)}

/-- `find_zeros` in one dimension: if it returns, the ranges written are narrow parts of the search range that contain all
zeros. -/
theorem C48_find_zeros1 (hk : V.kind ≠ .exact) {g : Itv (Fl f) → M V.ctl.W (Itv (Fl f))} {Z : Set ℝ} (hg : Notices1 V g Z)
    (he : val eps = some (e : EReal)) (ha : val xs.lower = some (a : EReal)) (hb : val xs.upper = some (b : EReal)) (hab : a ≤ b)
    (ha' : |a| ≤ (maxFin f : ℝ) / 2) (hb' : |b| ≤ (maxFin f : ℝ) / 2) (n : ℕ) (s : V.State) (hs : V.Valid s) :
    (findZeros1 V.P g eps n [xs] [] s).2.cw = s.cw ∧
    match (findZeros1 V.P g eps n [xs] [] s).1 with
    | .ok res => Found1 Z a b e res
    | .error err => err = .fuel := by
  obtain ⟨h1, h2⟩ := found1 (zdata_fl hk he ha' hb') hg ha hb hab n s hs
  refine ⟨h1, ?_⟩
  cases ho : (findZeros1 V.P g eps n [xs] [] s).1 with
  | ok R => rw [ho] at h2; exact h2
  | error err => rw [ho] at h2; exact h2.1

/-- `find_zeros` in two dimensions. -/
theorem C48_find_zeros2 (hk : V.kind ≠ .exact) {g : Itv (Fl f) → Itv (Fl f) → M V.ctl.W (Itv (Fl f))} {Z : Set (ℝ × ℝ)} (hg : Notices2 V g Z)
    (he : val eps = some (e : EReal)) (ha : val xs.lower = some (a : EReal)) (hb : val xs.upper = some (b : EReal)) (hab : a ≤ b)
    (hc : val ys.lower = some (c : EReal)) (hd : val ys.upper = some (d : EReal)) (hcd : c ≤ d)
    (ha' : |a| ≤ (maxFin f : ℝ) / 2) (hb' : |b| ≤ (maxFin f : ℝ) / 2) (hc' : |c| ≤ (maxFin f : ℝ) / 2) (hd' : |d| ≤ (maxFin f : ℝ) / 2)
    (n : ℕ) (s : V.State) (hs : V.Valid s) :
    (findZeros2 V.P g eps n [(xs, ys)] [] s).2.cw = s.cw ∧
    match (findZeros2 V.P g eps n [(xs, ys)] [] s).1 with
    | .ok res => Found2 Z a b c d e res
    | .error err => err = .fuel := by
  obtain ⟨h1, h2⟩ := found2 (zdata_fl hk he ha' hb') (zdata_fl hk he hc' hd') hg ha hb hab hc hd hcd n s hs
  refine ⟨h1, ?_⟩
  cases ho : (findZeros2 V.P g eps n [(xs, ys)] [] s).1 with
  | ok R => rw [ho] at h2; exact h2
  | error err => rw [ho] at h2; exact h2.1
end

section
variable (V : Env ℚ) {e : ℚ} {xs ys : Itv ℚ}

/-- With rational numbers `find_zeros` always terminates. -/
theorem C48_find_zeros1_rat (hk : V.kind = .exact) (hl : ∀ f (x : ℚ) a b, V.lib f a x = V.lib f b x)
    {g : Itv ℚ → M V.ctl.W (Itv ℚ)} {Z : Set ℝ} (hg : Notices1 V g Z) (he : 0 < e) (h : xs.lower ≤ xs.upper) :
    ∃ n₀, ∀ n ≥ n₀, V.Returns (findZeros1 V.P g e n [xs] []) (Found1 Z xs.lower xs.upper e) := by
  refine ⟨turns (ratDepth e xs), fun n hn s hs => ?_⟩
  obtain ⟨h1, h2⟩ := found1 (zdata_rat hk hl he _ _) hg rfl rfl (by exact_mod_cast h) n s hs
  cases ho : (findZeros1 V.P g e n [xs] [] s).1 with
  | ok R => rw [ho] at h2; exact ⟨R, rfl, h1, h2⟩
  | error err => rw [ho] at h2; exact absurd (h2.2 trivial) (not_lt.2 hn)

theorem C48_find_zeros2_rat (hk : V.kind = .exact) (hl : ∀ f (x : ℚ) a b, V.lib f a x = V.lib f b x)
    {g : Itv ℚ → Itv ℚ → M V.ctl.W (Itv ℚ)} {Z : Set (ℝ × ℝ)} (hg : Notices2 V g Z) (he : 0 < e) (h : xs.lower ≤ xs.upper)
    (h' : ys.lower ≤ ys.upper) :
    ∃ n₀, ∀ n ≥ n₀, V.Returns (findZeros2 V.P g e n [(xs, ys)] []) (Found2 Z xs.lower xs.upper ys.lower ys.upper e) := by
  refine ⟨turns (ratDepth e xs + ratDepth e ys), fun n hn s hs => ?_⟩
  obtain ⟨h1, h2⟩ := found2 (zdata_rat hk hl he _ _) (zdata_rat hk hl he _ _) hg rfl rfl (by exact_mod_cast h) rfl rfl
    (by exact_mod_cast h') n s hs
  cases ho : (findZeros2 V.P g e n [(xs, ys)] [] s).1 with
  | ok R => rw [ho] at h2; exact ⟨R, rfl, h1, h2⟩
  | error err => rw [ho] at h2; exact absurd (h2.2 trivial) (not_lt.2 hn)
end

/-! ## The hypotheses can be met -/

private abbrev cst (q : ℚ) : Fl Fmt.double := rnd _ .near false q

private theorem cst_val (q : ℚ) (m e : ℤ) (h : |m| < 2 ^ 53 ∧ -1074 ≤ e ∧ e ≤ 971) (hq : q = m * (2 : ℚ) ^ e) :
    val (cst q) = some ((q : ℝ) : EReal) := rnd_exact _ _ ⟨m, e, h.1, h.2.1, h.2.2, hq⟩

/-- The constants of the program: 1e-10 and 5.1 as numbers of type `double`. -/
example : cst (1 / 10 ^ 10) = cst (7737125245533627 / 2 ^ 86) ∧ cst (51 / 10) = cst (2871044762448691 / 2 ^ 49) := by decide +kernel

private noncomputable abbrev progN (V : Env (Fl .double)) : Newton (M V.ctl.W) (Fl .double) :=
  quinticN V (cst 40) (cst 105) (cst 100) (cst 24) (cst (7737125245533627 / 2 ^ 86)) (cst (3 / 4))

private abbrev progX : Itv (Fl .double) := ⟨cst (-1), cst (2871044762448691 / 2 ^ 49)⟩

theorem max_half : (6 : ℝ) ≤ (maxFin .double : ℝ) / 2 := by
  have : (12 : ℚ) ≤ maxFin .double := by decide +kernel
  have : (12 : ℝ) ≤ (maxFin .double : ℝ) := by exact_mod_cast this
  linarith

/-- newton-raphson.cpp, first half of `main`. -/
private theorem prog1 (n : ℕ) (s : dbl.State) (hs : dbl.Valid s) :
    (∀ res, (dbl.P.rnd.scope (newton1 dbl.P.unprot (progN dbl) n [progX] []) s).1 = .ok res → Isolates quinticF (Icc ((-1 : ℚ) : ℝ) ((2871044762448691 / 2 ^ 49 : ℚ) : ℝ)) ((-1 : ℚ) : ℝ) ((2871044762448691 / 2 ^ 49 : ℚ) : ℝ)
        ((7737125245533627 / 2 ^ 86 : ℚ) : ℝ) res) ∧
    ∀ e, (dbl.P.rnd.scope (newton1 dbl.P.unprot (progN dbl) n [progX] []) s).1 = .error e → e = .fuel := by
  have h := max_half
  have h40 : val (cst 40) = some ((40 : ℝ) : EReal) := by have := cst_val 40 40 0 (by decide) (by norm_num); push_cast at this; exact this
  have h105 : val (cst 105) = some ((105 : ℝ) : EReal) := by have := cst_val 105 105 0 (by decide) (by norm_num); push_cast at this; exact this
  have h100 : val (cst 100) = some ((100 : ℝ) : EReal) := by have := cst_val 100 100 0 (by decide) (by norm_num); push_cast at this; exact this
  have h24 : val (cst 24) = some ((24 : ℝ) : EReal) := by have := cst_val 24 24 0 (by decide) (by norm_num); push_cast at this; exact this
  have hw := cst_val (7737125245533627 / 2 ^ 86) 7737125245533627 (-86) (by decide) (by norm_num)
  have hα := cst_val (3 / 4) 3 (-2) (by decide) (by norm_num)
  have ha := cst_val (-1) (-1) 0 (by decide) (by norm_num)
  have hb := cst_val (2871044762448691 / 2 ^ 49) 2871044762448691 (-49) (by decide) (by norm_num)
  have hh := C48_newton1_quintic dbl (xs := progX) (by decide) h40 h105 h100 h24 hw hα (by norm_num [abs_le]) ha hb (by norm_num)
    (le_trans (by norm_num [abs_le]) h) (le_trans (by norm_num [abs_le]) h) n s hs
  exact ⟨fun res hr => by rw [hr] at hh; exact hh, fun e he => by rw [he] at hh; exact hh⟩

/-- It returns five intervals. -/
example : (match (dbl.P.rnd.scope (newton1 dbl.P.unprot (progN dbl) 60 [progX] []) dblNear).1 with
    | .ok res => res.length == 5
    | .error _ => false) = true := by
  decide +kernel

/-- An environment for the second method: empty intervals are allowed. -/
private noncomputable abbrev dblEmpty : Env (Fl .double) := { dbl with checks := .base }

private theorem prog2 (n : ℕ) (s : dblEmpty.State) (hs : dblEmpty.Valid s) :
    (∀ res, (dblEmpty.P.rnd.scope (newton2 dblEmpty.P.unprot (progN dblEmpty) n [progX] []) s).1 = .ok res → Isolates quinticF (Icc ((-1 : ℚ) : ℝ) ((2871044762448691 / 2 ^ 49 : ℚ) : ℝ)) ((-1 : ℚ) : ℝ) ((2871044762448691 / 2 ^ 49 : ℚ) : ℝ)
        ((7737125245533627 / 2 ^ 86 : ℚ) : ℝ) res) ∧
    ∀ e, (dblEmpty.P.rnd.scope (newton2 dblEmpty.P.unprot (progN dblEmpty) n [progX] []) s).1 = .error e → e = .fuel := by
  have h := max_half
  have h40 : val (cst 40) = some ((40 : ℝ) : EReal) := by have := cst_val 40 40 0 (by decide) (by norm_num); push_cast at this; exact this
  have h105 : val (cst 105) = some ((105 : ℝ) : EReal) := by have := cst_val 105 105 0 (by decide) (by norm_num); push_cast at this; exact this
  have h100 : val (cst 100) = some ((100 : ℝ) : EReal) := by have := cst_val 100 100 0 (by decide) (by norm_num); push_cast at this; exact this
  have h24 : val (cst 24) = some ((24 : ℝ) : EReal) := by have := cst_val 24 24 0 (by decide) (by norm_num); push_cast at this; exact this
  have hw := cst_val (7737125245533627 / 2 ^ 86) 7737125245533627 (-86) (by decide) (by norm_num)
  have hα := cst_val (3 / 4) 3 (-2) (by decide) (by norm_num)
  have ha := cst_val (-1) (-1) 0 (by decide) (by norm_num)
  have hb := cst_val (2871044762448691 / 2 ^ 49) 2871044762448691 (-49) (by decide) (by norm_num)
  have hh := C48_newton2_quintic dblEmpty (xs := progX) (by decide) rfl h40 h105 h100 h24 hw hα (by norm_num [abs_le]) ha hb (by norm_num)
    (le_trans (by norm_num [abs_le]) h) (le_trans (by norm_num [abs_le]) h) n s hs
  exact ⟨fun res hr => by rw [hr] at hh; exact hh, fun e he => by rw [he] at hh; exact hh⟩

example : (match (dblEmpty.P.rnd.scope (newton2 dblEmpty.P.unprot (progN dblEmpty) 60 [progX] [])
      (⟨(⟨.near, ()⟩ : FEnv Unit), fun _ => true⟩ : dblEmpty.State)).1 with
    | .ok res => res.length == 5
    | .error _ => false) = true := by
  decide +kernel

/-- The identity notices its zero. -/
theorem notices_id {T : Type} [Num T] [Val T] [NumLaws T] (V : Env T) : Notices1 V (fun x => pure x) {0} := by
  intro x hx
  refine Env.Returns.pure ⟨.inl hx, ?_⟩
  rintro ⟨r, hr, h⟩
  rw [mem_singleton_iff.1 h] at hr; exact hr

theorem notices_fst {T : Type} [Num T] [Val T] [NumLaws T] (V : Env T) : Notices2 V (fun x _ => pure x) {(0, 0)} := by
  intro x y hx hy
  refine Env.Returns.pure ⟨.inl hx, ?_⟩
  rintro ⟨r, hr, h⟩
  rw [mem_singleton_iff.1 h] at hr; exact hr.1

example (n : ℕ) (s : dbl.State) (hs : dbl.Valid s) := C48_find_zeros1 dbl (by decide) (notices_id dbl) (cst_val 1 1 0 (by decide) (by norm_num))
  (xs := ⟨cst (-1), cst 5⟩) (cst_val (-1) (-1) 0 (by decide) (by norm_num)) (cst_val 5 5 0 (by decide) (by norm_num)) (by norm_num)
  (le_trans (by norm_num [abs_le]) max_half) (le_trans (by norm_num [abs_le]) max_half) n s hs

example (n : ℕ) (s : dbl.State) (hs : dbl.Valid s) := C48_find_zeros2 dbl (by decide) (notices_fst dbl) (cst_val 1 1 0 (by decide) (by norm_num))
  (xs := ⟨cst (-1), cst 5⟩) (ys := ⟨cst (-1), cst 5⟩) (cst_val (-1) (-1) 0 (by decide) (by norm_num)) (cst_val 5 5 0 (by decide) (by norm_num))
  (by norm_num) (cst_val (-1) (-1) 0 (by decide) (by norm_num)) (cst_val 5 5 0 (by decide) (by norm_num)) (by norm_num)
  (le_trans (by norm_num [abs_le]) max_half) (le_trans (by norm_num [abs_le]) max_half)
  (le_trans (by norm_num [abs_le]) max_half) (le_trans (by norm_num [abs_le]) max_half) n s hs

example := C48_find_zeros1_rat ratEnv rfl (fun _ _ _ _ => rfl) (notices_id ratEnv) (e := 1 / 4) (xs := ⟨-1, 5⟩) (by norm_num) (by norm_num)
example := C48_find_zeros2_rat ratEnv rfl (fun _ _ _ _ => rfl) (notices_fst ratEnv) (e := 1 / 4) (xs := ⟨-1, 5⟩) (ys := ⟨0, 1⟩) (by norm_num)
  (by norm_num) (by norm_num)

end BI
