import Verif.Spec.Expr
import Verif.Props.Arith2
import Verif.Props.Utility
import Verif.Props.Ctor
import Verif.Proofs.NoInf
/-! # Evaluation of expressions -/

set_option linter.unusedSectionVars false

namespace BI
open Set

section
variable {T : Type} [Num T] [Val T] [NumLaws T] {V : Env T} {x y : Itv T} {t : T}

theorem Post.of_ok {α : Type} {r : Res α} {Q : α → Prop} (h : ∃ z, r = .ok z ∧ Q z) : Post True r Q := by
  obtain ⟨z, rfl, hz⟩ := h; exact hz

theorem Post.ok_of {α : Type} {r : Res α} {Q : α → Prop} (h : Post True r Q) : ∃ z, r = .ok z ∧ Q z := by
  cases r with
  | ok z => exact ⟨z, rfl, h⟩
  | error e => exact absurd trivial h.2

theorem gamma_between {z : Itv T} {a b r : ℝ} (ha : a ∈ γ z) (hb : b ∈ γ z) (h1 : min a b ≤ r) (h2 : r ≤ max a b) :
    r ∈ γ z := by
  obtain ⟨l, u, el, eu, h3, h4⟩ := ha
  obtain ⟨l', u', el', eu', h5, h6⟩ := hb
  cases (el.symm.trans el'); cases (eu.symm.trans eu')
  refine ⟨l, u, el, eu, ?_, ?_⟩
  · rcases min_choice a b with h | h <;> rw [h] at h1
    · exact h3.trans (by exact_mod_cast h1)
    · exact h5.trans (by exact_mod_cast h1)
  · rcases max_choice a b with h | h <;> rw [h] at h2
    · exact le_trans (by exact_mod_cast h2) h4
    · exact le_trans (by exact_mod_cast h2) h6

theorem BinOp.II_post (hV : V.Directed) (o : BinOp) (hi : o = .div → InfBase T)
    (h : ∃ a ∈ γ x, ∃ b ∈ γ y, ∃ r, o.Rel a b r) :
    Post True (o.II V.pp x y) fun z => ∀ a ∈ γ x, ∀ b ∈ γ y, ∀ r, o.Rel a b r → r ∈ γ z := by
  obtain ⟨a₀, ha, b₀, hb, r₀, hr⟩ := h
  have hx : (γ x).Nonempty := ⟨_, ha⟩
  have hy : (γ y).Nonempty := ⟨_, hb⟩
  obtain ⟨_, _, ix⟩ := has_of_nonempty hx
  obtain ⟨_, _, iy⟩ := has_of_nonempty hy
  have hA := hV.dir du_weak
  have hD := hV.div du_weak
  cases o with
  | add => exact (addII_post hA.op V.chk ix iy).mono fun z hz a ha b hb r h =>
      h ▸ hz.encl hA.D_le hA.U_ge ⟨a, ha, b, hb, rfl⟩
  | sub => exact (subII_post hA.op V.chk ix iy).mono fun z hz a ha b hb r h =>
      h ▸ hz.encl hA.D_le hA.U_ge ⟨a, ha, b, hb, rfl⟩
  | mul => exact (mulII_post hA.op V.chk ix iy).mono fun z hz a ha b hb r h =>
      h ▸ hz.encl hA.D_le hA.U_ge ⟨a, ha, b, hb, rfl⟩
  | div =>
    have hne := fun h => hr.1 ((zero_bounds iy).1 h hb)
    exact (divII_encl hA hD (V.infLaws (hi rfl)) V.chk ix iy hne).mono fun z hz a ha b hb r h =>
      h.2 ▸ hz ⟨a, ha, b, hb, h.1, rfl⟩
  | min =>
    obtain ⟨z, h, e⟩ := C29_min V hx hy
    exact Post.of_ok ⟨z, h, fun a ha b hb r hr => by rw [e]; exact ⟨a, ha, b, hb, hr.symm⟩⟩
  | max =>
    obtain ⟨z, h, e⟩ := C29_max V hx hy
    exact Post.of_ok ⟨z, h, fun a ha b hb r hr => by rw [e]; exact ⟨a, ha, b, hb, hr.symm⟩⟩
  | hull =>
    obtain ⟨z, h, e⟩ := C24_hull V (.inl hx) (.inl hy) hx.inl
    exact Post.of_ok ⟨z, h, fun a ha b hb r hr => gamma_between (e.1 (.inl ha)) (e.1 (.inr hb)) hr.1 hr.2⟩

theorem BinOp.TI_post (hV : V.Directed) (o : BinOp) (hi : o = .div → InfBase T) {a : ℝ} (ht : val t = some (a : EReal))
    (h : ∃ b ∈ γ y, ∃ r, o.Rel a b r) :
    Post True (o.TI V.pp t y) fun z => ∀ b ∈ γ y, ∀ r, o.Rel a b r → r ∈ γ z := by
  obtain ⟨b₀, hb, r₀, hr⟩ := h
  have hy : (γ y).Nonempty := ⟨_, hb⟩
  obtain ⟨_, _, iy⟩ := has_of_nonempty hy
  have hA := hV.dir du_weak
  have hD := hV.div du_weak
  cases o with
  | add => exact (addTI_post hA.op V.chk ht iy).mono fun z hz b hb r h =>
      h ▸ hz.encl hA.D_le hA.U_ge ⟨a, rfl, b, hb, rfl⟩
  | sub => exact (subTI_post hA.op V.chk ht iy).mono fun z hz b hb r h =>
      h ▸ hz.encl hA.D_le hA.U_ge ⟨a, rfl, b, hb, rfl⟩
  | mul => exact (mulTI_post hA.op V.chk ht iy).mono fun z hz b hb r h =>
      h ▸ hz.encl hA.D_le hA.U_ge ⟨a, rfl, b, hb, rfl⟩
  | div =>
    have hne := fun h => hr.1 ((zero_bounds iy).1 h hb)
    exact (divTI_post hA.op hD (V.infLaws (hi rfl)) V.chk ht iy hne).mono fun z hz b hb r h =>
      h.2 ▸ hz.encl hA.D_le hA.U_ge ⟨a, rfl, b, hb, h.1, rfl⟩
  | min =>
    obtain ⟨z, h, e⟩ := (C29_min_num V hy ht).2
    exact Post.of_ok ⟨z, h, fun b hb r hr => by rw [e]; exact ⟨b, hb, hr.symm⟩⟩
  | max =>
    obtain ⟨z, h, e⟩ := (C29_max_num V hy ht).2
    exact Post.of_ok ⟨z, h, fun b hb r hr => by rw [e]; exact ⟨b, hb, hr.symm⟩⟩
  | hull =>
    obtain ⟨z, h, e⟩ := (C24_hull_num V (.inl hy) ht).2
    exact Post.of_ok ⟨z, h, fun b hb r hr => gamma_between (e.1 (.inl rfl)) (e.1 (.inr hb)) hr.1 hr.2⟩

theorem BinOp.IT_post (hV : V.Directed) (o : BinOp) {b : ℝ} (ht : val t = some (b : EReal))
    (h : ∃ a ∈ γ x, ∃ r, o.Rel a b r) :
    Post True (o.IT V.pp x t) fun z => ∀ a ∈ γ x, ∀ r, o.Rel a b r → r ∈ γ z := by
  obtain ⟨a₀, ha, r₀, hr⟩ := h
  have hx : (γ x).Nonempty := ⟨_, ha⟩
  obtain ⟨_, _, ix⟩ := has_of_nonempty hx
  have hA := hV.dir du_weak
  have hD := hV.div du_weak
  cases o with
  | add => exact (addIT_post hA.op V.chk ht ix).mono fun z hz a ha r h =>
      h ▸ hz.encl hA.D_le hA.U_ge ⟨a, ha, b, rfl, rfl⟩
  | sub => exact (subIT_post hA.op V.chk ht ix).mono fun z hz a ha r h =>
      h ▸ hz.encl hA.D_le hA.U_ge ⟨a, ha, b, rfl, rfl⟩
  | mul => exact (mulIT_post hA.op V.chk ht ix).mono fun z hz a ha r h =>
      h ▸ hz.encl hA.D_le hA.U_ge ⟨a, ha, b, rfl, rfl⟩
  | div => exact (divIT_post hD V.chk ix ht hr.1).mono fun z hz a ha r h =>
      h.2 ▸ hz.encl hA.D_le hA.U_ge ⟨a, ha, b, rfl, h.1, rfl⟩
  | min =>
    obtain ⟨z, h, e⟩ := (C29_min_num V hx ht).1
    exact Post.of_ok ⟨z, h, fun b hb r hr => by rw [e]; exact ⟨b, hb, hr.symm⟩⟩
  | max =>
    obtain ⟨z, h, e⟩ := (C29_max_num V hx ht).1
    exact Post.of_ok ⟨z, h, fun b hb r hr => by rw [e]; exact ⟨b, hb, hr.symm⟩⟩
  | hull =>
    obtain ⟨z, h, e⟩ := (C24_hull_num V (.inl hx) ht).1
    exact Post.of_ok ⟨z, h, fun b hb r hr => gamma_between (e.1 (.inl hb)) (e.1 (.inr rfl)) hr.1 hr.2⟩

theorem UnOp.I_post (hV : V.Directed) (o : UnOp) (hi : o = .inv → InfBase T) (hS : o = .sqrt → V.SqrtOk LeB GeB)
    (h : ∃ a ∈ γ x, ∃ r, o.Rel a r) :
    Post True (o.I V.pp x) fun z => ∀ a ∈ γ x, ∀ r, o.Rel a r → r ∈ γ z := by
  obtain ⟨a₀, ha, r₀, hr⟩ := h
  have hx : (γ x).Nonempty := ⟨_, ha⟩
  obtain ⟨_, _, ix⟩ := has_of_nonempty hx
  have hA := hV.dir du_weak
  have hD := hV.div du_weak
  cases o with
  | pos => exact Post.of_ok ⟨x, rfl, fun b hb r hr => by rw [show r = b from hr]; exact hb⟩
  | neg =>
    obtain ⟨z, h, e⟩ := C02_neg V hV.neg hx
    exact Post.of_ok ⟨z, h, fun b hb r hr => by rw [e]; exact ⟨b, hb, hr⟩⟩
  | abs =>
    obtain ⟨z, h, e⟩ := C28_abs V hV.neg hx
    exact Post.of_ok ⟨z, h, fun b hb r hr => by rw [e]; exact ⟨b, hb, hr.symm⟩⟩
  | square => exact (squareI_post hA.op V.chk ix).mono fun z hz a ha r h => h ▸ hz.encl hA.D_le hA.U_ge ⟨a, ha, rfl⟩
  | sqrt =>
    exact (sqrtI_post hA.op ((hS rfl).laws du_weak) V.chk ix (nonneg_upper ix ⟨a₀, ha, hr.1⟩)).mono fun z hz a ha r h =>
      h.2 ▸ hz.encl hA.D_le hA.U_ge ⟨a, ⟨ha, h.1⟩, rfl⟩
  | inv =>
    have h1 : val (Num.lit 1 : T) = some ((1 : ℝ) : EReal) := by rw [val_one]; rfl
    have hne := fun h => hr.1 ((zero_bounds ix).1 h ha)
    change Post True (multInv V.pp x) _
    rw [multInv_eq V.chk ix]
    exact (divTI_post hA.op hD (V.infLaws (hi rfl)) V.chk h1 ix hne).mono fun z hz b hb r h =>
      h.2 ▸ hz.encl hA.D_le hA.U_ge ⟨1, rfl, b, hb, h.1, (one_div b).symm⟩

/-! ## Outcomes -/

/-- A value with the property `A`, or an exception in `E`. -/
def Either (A : Itv T → Prop) (E : Err → Prop) (q : Res (Itv T)) : Prop := (∃ z, q = .ok z ∧ A z) ∨ (∃ e, E e ∧ q = .error e)

/-- The call returns an enclosure of `S`, or, if `B`, it is stopped by an assertion. -/
abbrev Out (B : Prop) (S : Set ℝ) (q : Res (Itv T)) : Prop := Either (fun z => S ⊆ γ z) (fun e => B ∧ e = .assertion) q

section
variable {B : Prop}

omit [NumLaws T] in
theorem Out.of_post {S : Set ℝ} {q : Res (Itv T)} (h : Post True q fun z => S ⊆ γ z) : Out B S q := .inl h.ok_of

omit [NumLaws T] in
theorem Out.of_or {S : Set ℝ} {q : Res (Itv T)} (hi : B) (h : q = .error .assertion ∨ Post True q fun z => S ⊆ γ z) :
    Out B S q := h.elim (fun h => .inr ⟨_, ⟨hi, rfl⟩, h⟩) .of_post

omit [NumLaws T] in
theorem Out.mono {S S' : Set ℝ} {q : Res (Itv T)} (h : Out B S q) (hs : S' ⊆ S) : Out B S' q :=
  h.imp (fun ⟨z, h1, h2⟩ => ⟨z, h1, hs.trans h2⟩) id

variable (hB : B → V.NoInf)
include hB

theorem BinOp.II_out (hV : V.Directed) (o : BinOp) (hi : o = .div → InfBase T ∨ B)
    (h : ∃ a ∈ γ x, ∃ b ∈ γ y, ∃ r, o.Rel a b r) :
    Out B {r | ∃ a ∈ γ x, ∃ b ∈ γ y, o.Rel a b r} (o.II V.pp x y) := by
  by_cases hn : o = .div ∧ B
  · obtain ⟨rfl, hn⟩ := hn
    obtain ⟨a₀, ha, b₀, hb, r₀, hr⟩ := h
    obtain ⟨_, _, ix⟩ := has_of_mem ha
    obtain ⟨_, _, iy⟩ := has_of_mem hb
    exact (Out.of_or hn (NoInf.divII_out hV (hB hn) ix iy fun h => hr.1 ((zero_bounds iy).1 h hb))).mono
      fun r ⟨a, ha, b, hb, h⟩ => ⟨a, ha, b, hb, h.1, h.2⟩
  · exact .of_post ((BinOp.II_post hV o (fun e => (hi e).resolve_right fun h => hn ⟨e, h⟩) h).mono
      fun z hz r ⟨a, ha, b, hb, h⟩ => hz a ha b hb r h)

theorem BinOp.TI_out (hV : V.Directed) (o : BinOp) (hi : o = .div → InfBase T ∨ B) {a : ℝ} (ht : val t = some (a : EReal))
    (h : ∃ b ∈ γ y, ∃ r, o.Rel a b r) : Out B {r | ∃ b ∈ γ y, o.Rel a b r} (o.TI V.pp t y) := by
  by_cases hn : o = .div ∧ B
  · obtain ⟨rfl, hn⟩ := hn
    obtain ⟨b₀, hb, r₀, hr⟩ := h
    obtain ⟨_, _, iy⟩ := has_of_mem hb
    exact (Out.of_or hn (NoInf.divTI_out hV hV du_weak (hB hn) ht iy fun h => hr.1 ((zero_bounds iy).1 h hb))).mono
      fun r ⟨b, hb, h⟩ => ⟨a, rfl, b, hb, h.1, h.2⟩
  · exact .of_post ((BinOp.TI_post hV o (fun e => (hi e).resolve_right fun h => hn ⟨e, h⟩) ht h).mono
      fun z hz r ⟨b, hb, h⟩ => hz b hb r h)

omit hB in
theorem BinOp.IT_out (hV : V.Directed) (o : BinOp) {b : ℝ} (ht : val t = some (b : EReal)) (h : ∃ a ∈ γ x, ∃ r, o.Rel a b r) :
    Out B {r | ∃ a ∈ γ x, o.Rel a b r} (o.IT V.pp x t) :=
  .of_post ((BinOp.IT_post hV o ht h).mono fun z hz r ⟨a, ha, h⟩ => hz a ha r h)

theorem UnOp.I_out (hV : V.Directed) (o : UnOp) (hi : o = .inv → InfBase T ∨ B) (hS : o = .sqrt → V.SqrtOk LeB GeB)
    (h : ∃ a ∈ γ x, ∃ r, o.Rel a r) : Out B {r | ∃ a ∈ γ x, o.Rel a r} (o.I V.pp x) := by
  by_cases hn : o = .inv ∧ B
  · obtain ⟨rfl, hn⟩ := hn
    obtain ⟨a₀, ha, r₀, hr⟩ := h
    obtain ⟨_, _, ix⟩ := has_of_mem ha
    have h1 : val (Num.lit 1 : T) = some ((1 : ℝ) : EReal) := by rw [val_one]; rfl
    change Out B _ (multInv V.pp x)
    rw [multInv_eq V.chk ix]
    exact (Out.of_or hn (NoInf.divTI_out hV hV du_weak (hB hn) h1 ix fun h => hr.1 ((zero_bounds ix).1 h ha))).mono
      fun r ⟨a, ha, h⟩ => ⟨1, rfl, a, ha, h.1, h.2.trans (one_div a).symm⟩
  · exact .of_post ((UnOp.I_post hV o (fun e => (hi e).resolve_right fun h => hn ⟨e, h⟩) hS h).mono
      fun z hz r ⟨a, ha, h⟩ => hz a ha r h)

theorem powI_out {k : ℤ} (hV : V.Signed) (hi : k < 0 → InfBase T ∨ B) (hk : k ≠ -2147483648)
    (h : ∃ a ∈ γ x, a ≠ 0 ∨ 0 < k) : Out B {r | ∃ a ∈ γ x, (a ≠ 0 ∨ 0 < k) ∧ r = a ^ k} (powI V.pp x k) := by
  obtain ⟨a₀, ha, ho⟩ := h
  obtain ⟨_, _, ix⟩ := has_of_mem ha
  by_cases hn : k < 0 ∧ B
  · obtain ⟨hk0, hn⟩ := hn
    refine .of_or hn ((NoInf.powI_out hV (hB hn) ix hk0 hk fun h => (ho.resolve_right (by omega)) ((zero_bounds ix).1 h ha)).imp id
      fun hz => hz.mono fun z hz r ⟨a, ha, ho, hr⟩ => ?_)
    rw [hr]
    exact hz a ha (ho.resolve_right (by omega))
  · refine .of_post ((powI_post (hV.dir du_signed) (hV.div du_signed) V.chk ix hk
      (fun h => V.infLaws ((hi h).resolve_right fun h' => hn ⟨h, h'⟩)) fun h h' =>
      (ho.resolve_right (by omega)) ((zero_bounds ix).1 h' ha)).mono fun z hz r ⟨a, ha, ho, hr⟩ => ?_)
    rw [hr]
    exact hz a ha fun hn => ho.resolve_right (by omega)

/-- The elementary functions; with a limit large enough, the outcome does not depend on it. -/
theorem Fn.I_out {K : PiConst T} {inf : Prop} (f : Fn) (hV : V.Directed) (hi : inf → InfBase T ∨ B) (hf : V.ElemOk K inf f)
    (h : (γ x ∩ f.dom).Nonempty) :
    ∃ q N, Out B (f.real '' (γ x ∩ f.dom)) q ∧ ((f.uses == .cos) = false → N = 0) ∧ ∀ fuel ≥ N, f.I K fuel V.pp x = q := by
  obtain ⟨hK, hf, hu, ht⟩ := hf
  have hne : (γ x).Nonempty := h.mono inter_subset_left
  obtain ⟨a, b, ix⟩ := has_of_nonempty hne
  have hDU := du_weak (T := T)
  by_cases hs : f.simple = true
  · have hfu : f.uses = f := by cases f <;> first | rfl | cases hs
    rw [hfu] at hf
    have key : ∀ fuel, f.I K fuel V.pp x = f.I K 0 V.pp x := fun fuel => by cases f <;> first | rfl | cases hs
    refine ⟨f.I K 0 V.pp x, 0, ?_, fun _ => rfl, fun fuel _ => key fuel⟩
    by_cases hn : f.unbounded = true ∧ B
    · obtain ⟨hub, hn⟩ := hn
      refine .of_or hn ?_
      cases f with
      | log => exact (NoInf.logI_out (hB hn) hf h).imp id fun h => h.mono fun z hz r hr => hz.encl hDU.D_le hDU.U_ge hr
      | atanh => exact (NoInf.atanhI_out (hB hn) hf h).imp id fun h => h.mono fun z hz r hr => hz.encl hDU.D_le hDU.U_ge hr
      | tan => cases hs
      | _ => cases hub
    · exact .of_post ((Fn.I_post hDU hV.neg hK.ok hs (fun e => (hi (hu e)).resolve_right fun h => hn ⟨e, h⟩) hf h).mono
        fun z hz r hr => hz.encl hDU.D_le hDU.U_ge hr)
  · obtain ⟨hT, hI, hE, hP⟩ := ht (by simpa using hs)
    cases f with
    | sin =>
      obtain ⟨z, N, h1, h2⟩ := sin_post hT hI hE hDU hf hK.ok hP ix
      refine ⟨.ok z, N, .inl ⟨z, rfl, ?_⟩, (fun h => by cases h), h2⟩
      rintro _ ⟨r, hr, rfl⟩
      exact h1.1 r hr.1
    | cos =>
      obtain ⟨N, hN⟩ := cos_post hT hI hE hDU hf hK.ok hP ix
      obtain ⟨z, hz, hz'⟩ := (hN N le_rfl false).total
      refine ⟨.ok z, N, .inl ⟨z, rfl, ?_⟩, (fun h => by cases h), fun fuel hfuel => cos_fuel_le hz hfuel⟩
      rintro _ ⟨r, hr, rfl⟩
      exact hz'.1 r hr.1
    | tan =>
      refine ⟨tanI K V.pp x, 0, ?_, fun _ => rfl, fun _ _ => rfl⟩
      rcases hi (hu rfl) with h' | h'
      · refine .of_post ((tan_post hT hI hE hDU hf hK.ok hP (V.infLaws h') ix).mono fun z hz => ?_)
        rintro _ ⟨r, hr, rfl⟩
        exact hz.1 r hr.1 hr.2
      · refine .of_or h' ((NoInf.tanI_out (hB h') hT hI hE hf hK hP hne).imp id fun h => h.mono fun z hz => ?_)
        rintro _ ⟨r, hr, rfl⟩
        exact hz r hr.1
    | _ => exact absurd rfl hs

end

/-! ## The concrete operations -/

section
variable {W : Type} {I J : Inv W} {P : Policies (M W) T} {B : Arith Res T} {C : Checking T}

omit [Val T] [NumLaws T] in
theorem BinOp.II_sim (h : PSim I J P B C) (o : BinOp) (x y : Itv T) :
    Sim I (o.II P x y) (o.II (purePolicies B C) x y) := by
  cases o
  · exact addII_sim h x y
  · exact subII_sim h x y
  · exact mulII_sim h x y
  · exact divII_sim h x y
  all_goals (unfold BinOp.II; dsimp only; rw [h.chk, pure_chk]; exact Sim.lift _)

omit [Val T] [NumLaws T] in
theorem BinOp.TI_sim (h : PSim I J P B C) (o : BinOp) (x : T) (y : Itv T) :
    Sim I (o.TI P x y) (o.TI (purePolicies B C) x y) := by
  cases o
  · exact addTI_sim h x y
  · exact subTI_sim h x y
  · exact mulTI_sim h x y
  · exact divTI_sim h x y
  all_goals (unfold BinOp.TI; dsimp only; rw [h.chk, pure_chk]; exact Sim.lift _)

omit [Val T] [NumLaws T] in
theorem BinOp.IT_sim (h : PSim I J P B C) (o : BinOp) (x : Itv T) (y : T) :
    Sim I (o.IT P x y) (o.IT (purePolicies B C) x y) := by
  cases o
  · exact addIT_sim h x y
  · exact subIT_sim h x y
  · exact mulIT_sim h x y
  · exact divIT_sim h x y
  all_goals (unfold BinOp.IT; dsimp only; rw [h.chk, pure_chk]; exact Sim.lift _)

omit [Val T] [NumLaws T] in
theorem UnOp.I_sim (h : PSim I J P B C) (o : UnOp) (x : Itv T) : Sim I (o.I P x) (o.I (purePolicies B C) x) := by
  cases o
  · exact Sim.pure _
  · unfold UnOp.I; dsimp only; rw [h.chk, pure_chk]; exact Sim.lift _
  · unfold UnOp.I; dsimp only; rw [h.chk, pure_chk]; exact Sim.lift _
  · exact squareI_sim h x
  · exact sqrtI_sim h x
  · exact multInv_sim h x

/-- As `Sim`, but if `r` is not a value, the computation may end with any exception in `E`. -/
def Ends (I : Inv W) (E : Err → Prop) {α : Type} (a : M W α) (r : Res α) : Prop :=
  ∀ s : St W, I.Pre s.cw → I.Rel s.cw (a s).2.cw ∧
    (∀ z, r = .ok z → (a s).1 = .ok z ∧ I.Pre (a s).2.cw) ∧ (∀ e, r = .error e → ∃ e', E e' ∧ (a s).1 = .error e')

namespace Ends
variable {E : Err → Prop} {α β : Type}

theorem of_sim {a : M W α} {r : Res α} (h : Sim I a r) (hE : ∀ e, r = .error e → E e) : Ends I E a r := fun s hs => by
  obtain ⟨h1, h2, h3⟩ := h s hs
  exact ⟨h2, fun z hz => ⟨h1.trans hz, h3 z hz⟩, fun e he => ⟨e, hE e he, h1.trans he⟩⟩

theorem sim {a : M W α} {z : α} (h : Ends I E a (.ok z)) : Sim I a (.ok z) := fun s hs => by
  obtain ⟨h1, h2, -⟩ := h s hs
  exact ⟨(h2 z rfl).1, h1, fun _ _ => (h2 z rfl).2⟩

theorem bind_ok {a : M W α} {f : α → M W β} {r : Res β} {z : α} (ha : Ends I E a (.ok z)) (hf : Ends I E (f z) r) :
    Ends I E (a >>= f) r := by
  intro s h
  obtain ⟨h1, h2, -⟩ := ha s h
  obtain ⟨h2, h3⟩ := h2 z rfl
  change I.Rel _ (M.bind a f s).2.cw ∧ (∀ z, r = .ok z → (M.bind a f s).1 = .ok z ∧ I.Pre (M.bind a f s).2.cw) ∧
    (∀ e, r = .error e → ∃ e', E e' ∧ (M.bind a f s).1 = .error e')
  unfold M.bind
  rcases hs : a s with ⟨o, s'⟩
  rw [hs] at h1 h2 h3
  dsimp only at h1 h2 h3
  subst h2
  obtain ⟨k1, k2, k3⟩ := hf s' h3
  exact ⟨I.trans _ _ _ h1 k1, k2, k3⟩

theorem bind_err {a : M W α} {f : α → M W β} {e e' : Err} (ha : Ends I E a (.error e)) : Ends I E (a >>= f) (.error e') := by
  intro s h
  obtain ⟨h1, -, h2⟩ := ha s h
  obtain ⟨e'', h2, h3⟩ := h2 e rfl
  change I.Rel _ (M.bind a f s).2.cw ∧ (∀ z, _ → (M.bind a f s).1 = .ok z ∧ I.Pre (M.bind a f s).2.cw) ∧
    (∀ e, _ → ∃ e', E e' ∧ (M.bind a f s).1 = .error e')
  unfold M.bind
  rcases hs : a s with ⟨o, s'⟩
  rw [hs] at h1 h3
  dsimp only at h1 h3
  subst h3
  exact ⟨h1, (fun z hz => by cases hz), fun _ _ => ⟨e'', h2, rfl⟩⟩

/-- One operand, then the other; in either order. -/
private theorem seq {γ : Type} {a : M W α} {b : M W β} {p : Res α} {q : Res β} (f : α → β → γ) (ha : Ends I E a p) (hb : Ends I E b q) :
    Ends I E (a >>= fun x => b >>= fun y => (Pure.pure (f x y) : M W γ)) (p >>= fun x => q >>= fun y => (Pure.pure (f x y) : Res γ)) := by
  cases p with
  | error e => exact ha.bind_err
  | ok x =>
    refine ha.bind_ok ?_
    cases q with
    | error e => exact hb.bind_err
    | ok y => exact hb.bind_ok (of_sim (Sim.pure _) fun e h => by cases h)

/-- The operands of an operator. -/
theorem pair {a : M W α} {b : M W β} {p : Res α} {q : Res β} (ha : Ends I E a p) (hb : Ends I E b q) :
    Ends I E (BI.pair a b) (BI.pair p q) := by
  have h1 := ha.seq (fun x y => (x, y)) hb
  have h2 := hb.seq (fun y x => (x, y)) ha
  intro s h
  have e : (BI.pair a b : M W (α × β)) s =
      if s.sched 0 then
        M.bind a (fun x => M.bind b (fun y s => (.ok (x, y), s))) { s with sched := fun n => s.sched (n + 1) }
      else M.bind b (fun y => M.bind a (fun x s => (.ok (x, y), s))) { s with sched := fun n => s.sched (n + 1) } := rfl
  rw [e]
  split
  · exact h1 { s with sched := fun n => s.sched (n + 1) } h
  · obtain ⟨k1, k2, k3⟩ := h2 { s with sched := fun n => s.sched (n + 1) } h
    refine ⟨k1, fun z hz => k2 z ?_, fun e he => ?_⟩
    · cases p with
      | error e => cases hz
      | ok x =>
        cases q with
        | error e => cases hz
        | ok y => exact hz
    · have : ∃ e, (q >>= fun y => p >>= fun x => (Pure.pure (x, y) : Res (α × β))) = .error e := by
        cases q with
        | error e => exact ⟨e, rfl⟩
        | ok y =>
          cases p with
          | error e => exact ⟨e, rfl⟩
          | ok x => cases he
      obtain ⟨e, he⟩ := this
      exact k3 e he
end Ends

end

/-! ## Whole expressions -/

/-- Values at the points of the operands. -/
def Expr.RoundedIn (R : ℝ → ℝ → Prop) (ρ : ℕ → Itv T) (e : Expr T) (r : ℝ) : Prop :=
  ∃ v : ℕ → ℝ, (∀ i, v i ∈ γ (ρ i)) ∧ e.Rounded R v r

omit [Num T] [NumLaws T] in
theorem Expr.value_iff (v : ℕ → ℝ) (e : Expr T) (r : ℝ) : e.Rounded Eq v r ↔ e.Value v r := by
  induction e generalizing r with
  | var i => exact Iff.rfl
  | num t => exact Iff.rfl
  | un o e ih => simp only [Expr.Rounded, Expr.Value, ih]; simp
  | pow e k ih => simp only [Expr.Rounded, Expr.Value, ih]; simp only [eq_comm]
  | bin o e₁ e₂ ih₁ ih₂ => simp only [Expr.Rounded, Expr.Value, ih₁, ih₂]; simp
  | binL o t e ih => simp only [Expr.Rounded, Expr.Value, ih]; simp
  | binR o e t ih => simp only [Expr.Rounded, Expr.Value, ih]; simp
  | inter e₁ e₂ ih₁ ih₂ => simp only [Expr.Rounded, Expr.Value, ih₁, ih₂]; simp
  | fn f e ih => simp only [Expr.Rounded, Expr.Value, ih]; simp only [eq_comm]

/-- Intervals contain what `R` makes of their points. -/
def Absorbs (T : Type) [Val T] (R : ℝ → ℝ → Prop) : Prop := ∀ (z : Itv T) (s r : ℝ), s ∈ γ z → R s r → r ∈ γ z

omit [Num T] [NumLaws T] in
theorem Out.close {B : Prop} {R : ℝ → ℝ → Prop} (hR : Absorbs T R) {S : Set ℝ} {q : Res (Itv T)} (h : Out B S q) :
    Out B {r | ∃ s ∈ S, R s r} q :=
  h.imp (fun ⟨z, h1, h2⟩ => ⟨z, h1, fun r ⟨s, hs, h⟩ => hR z s r (h2 hs) h⟩) id

/-- The family of calls `op` behaves as `q` from limit `N` on. -/
def Settles (V : Env T) (E : Err → Prop) (op : {m : Type → Type} → [Eff m] → ℕ → Policies m T → m (Itv T)) (N : ℕ) (q : Res (Itv T)) :
    Prop :=
  ∀ fuel ≥ N, ∀ {I J : Inv V.ctl.W} {P : Policies (M V.ctl.W) T}, PSim I J P V.B V.C → Ends I E (op fuel P) q

section
omit [NumLaws T]
variable {E : Err → Prop}

/-- One more operation on the outcome of an expression. -/
theorem Settles.bind {op : {m : Type → Type} → [Eff m] → ℕ → Policies m T → m (Itv T)}
    {g : {m : Type → Type} → [Eff m] → ℕ → Policies m T → Itv T → m (Itv T)} {N : ℕ} {q : Res (Itv T)} {A A' : Itv T → Prop}
    {l₁ l₂ : Prop} (h : Settles V E op N q) (hq : Either A E q) (hN : l₁ → N = 0)
    (hg : ∀ x, A x → ∃ q' N', Either A' E q' ∧ (l₂ → N' = 0) ∧ Settles V E (fun fuel P => g fuel P x) N' q') :
    ∃ q' N', Either A' E q' ∧ (l₁ → l₂ → N' = 0) ∧
      Settles V E (fun {m} [Eff m] fuel P => op (m := m) fuel P >>= fun x => g (m := m) fuel P x) N' q' := by
  rcases hq with ⟨x, rfl, hx⟩ | ⟨e, he, rfl⟩
  · obtain ⟨q', N', h1, h2, h3⟩ := hg x hx
    exact ⟨q', max N N', h1, fun a b => by rw [hN a, h2 b]; rfl, fun fuel hf _ _ _ hs =>
      (h fuel (le_trans (le_max_left _ _) hf) hs).bind_ok (h3 fuel (le_trans (le_max_right _ _) hf) hs)⟩
  · exact ⟨.error e, N, .inr ⟨e, he, rfl⟩, fun a _ => hN a, fun fuel hf _ _ _ hs => (h fuel hf hs).bind_err⟩

/-- The same for two operands. -/
theorem Settles.bind₂ {op₁ op₂ : {m : Type → Type} → [Eff m] → ℕ → Policies m T → m (Itv T)}
    {g : {m : Type → Type} → [Eff m] → Policies m T → Itv T → Itv T → m (Itv T)} {N₁ N₂ : ℕ} {q₁ q₂ : Res (Itv T)}
    {A₁ A₂ A' : Itv T → Prop} {l₁ l₂ : Prop} (h₁ : Settles V E op₁ N₁ q₁) (hq₁ : Either A₁ E q₁) (hN₁ : l₁ → N₁ = 0)
    (h₂ : Settles V E op₂ N₂ q₂) (hq₂ : Either A₂ E q₂) (hN₂ : l₂ → N₂ = 0)
    (hg : ∀ x y, A₁ x → A₂ y → Either A' E (g V.pp x y))
    (hs : ∀ x y {I J : Inv V.ctl.W} {P : Policies (M V.ctl.W) T}, PSim I J P V.B V.C → Sim I (g P x y) (g V.pp x y)) :
    ∃ q' N', Either A' E q' ∧ (l₁ → l₂ → N' = 0) ∧
      Settles V E (fun {m} [Eff m] fuel P => pair (op₁ (m := m) fuel P) (op₂ (m := m) fuel P) >>= fun p => g (m := m) P p.1 p.2) N' q' := by
  have hN : l₁ → l₂ → max N₁ N₂ = 0 := fun a b => by rw [hN₁ a, hN₂ b]; rfl
  have pr : ∀ fuel ≥ max N₁ N₂, ∀ {I J : Inv V.ctl.W} {P : Policies (M V.ctl.W) T}, PSim I J P V.B V.C →
      Ends I E (pair (op₁ fuel P) (op₂ fuel P)) (pair q₁ q₂) :=
    fun fuel hf _ _ _ h => (h₁ fuel (le_trans (le_max_left _ _) hf) h).pair (h₂ fuel (le_trans (le_max_right _ _) hf) h)
  rcases hq₁ with ⟨x, rfl, hx⟩ | ⟨e, he, rfl⟩
  · rcases hq₂ with ⟨y, rfl, hy⟩ | ⟨e, he, rfl⟩
    · refine ⟨g V.pp x y, _, hg x y hx hy, hN, fun fuel hf _ _ _ h => Ends.bind_ok (z := (x, y)) (pr fuel hf h) (.of_sim (hs x y h) ?_)⟩
      rcases hg x y hx hy with ⟨z, hz, -⟩ | ⟨e, he, hz⟩
      · exact fun e h => by cases hz.symm.trans h
      · exact fun e' h => by cases hz.symm.trans h; exact he
    · exact ⟨.error e, _, .inr ⟨e, he, rfl⟩, hN, fun fuel hf _ _ _ h => (show Ends _ _ _ (.error e) from pr fuel hf h).bind_err⟩
  · exact ⟨.error e, _, .inr ⟨e, he, rfl⟩, hN, fun fuel hf _ _ _ h => (show Ends _ _ _ (.error e) from pr fuel hf h).bind_err⟩

theorem Settles.of {g : {m : Type → Type} → [Eff m] → Policies m T → m (Itv T)} {A : Itv T → Prop} (hq : Either A E (g V.pp))
    (hs : ∀ {I J : Inv V.ctl.W} {P : Policies (M V.ctl.W) T}, PSim I J P V.B V.C → Sim I (g P) (g V.pp)) :
    Settles V E (fun _ P => g P) 0 (g V.pp) := fun _ _ _ _ _ h => .of_sim (hs h) fun e he => by
  rcases hq with ⟨z, hz, -⟩ | ⟨e', he', hz⟩
  · cases hz.symm.trans he
  · cases hz.symm.trans he; exact he'

/-- One more operation that needs no limit. -/
theorem Settles.step {op : {m : Type → Type} → [Eff m] → ℕ → Policies m T → m (Itv T)}
    {g : {m : Type → Type} → [Eff m] → Policies m T → Itv T → m (Itv T)} {N : ℕ} {q : Res (Itv T)} {A A' : Itv T → Prop}
    {l : Prop} (h : Settles V E op N q) (hq : Either A E q) (hN : l → N = 0) (hg : ∀ x, A x → Either A' E (g V.pp x))
    (hs : ∀ x {I J : Inv V.ctl.W} {P : Policies (M V.ctl.W) T}, PSim I J P V.B V.C → Sim I (g P x) (g V.pp x)) :
    ∃ q' N', Either A' E q' ∧ (l → N' = 0) ∧
      Settles V E (fun {m} [Eff m] fuel P => op (m := m) fuel P >>= fun x => g (m := m) P x) N' q' := by
  obtain ⟨q', N', k1, k2, k3⟩ := h.bind (g := fun _ P x => g P x) (A' := A') (l₂ := True) hq hN
    fun x hx => ⟨_, 0, hg x hx, fun _ => rfl, .of (hg x hx) (hs x)⟩
  exact ⟨q', N', k1, fun h => k2 h trivial, k3⟩
end

theorem Expr.eval_rounded {R : ℝ → ℝ → Prop} (hR : Absorbs T R) {K : PiConst T} {inf B : Prop} (hB : B → V.NoInf) (hV : V.Directed) (hi : inf → InfBase T ∨ B) (ρ : ℕ → Itv T)
    (e : Expr T) (hs : e.Supported V K inf) (hd : ∃ r, e.RoundedIn R ρ r) :
    ∃ q N, Out B {r | e.RoundedIn R ρ r} q ∧ (e.nests = false → N = 0) ∧
      Settles V (fun e => B ∧ e = .assertion) (fun fuel P => e.eval K fuel P ρ) N q := by
  induction e with
  | var i =>
    exact ⟨.ok (ρ i), 0, .inl ⟨_, rfl, fun r ⟨v, hv, hr⟩ => hr ▸ hv i⟩, fun _ => rfl, fun _ _ _ _ _ h =>
      .of_sim (Sim.pure _) fun e h => by cases h⟩
  | num t =>
    obtain ⟨r₀, v, hv, hr⟩ := hd
    obtain ⟨z, hz, -, -, e⟩ := C36_num V hr
    refine ⟨.ok z, 0, .inl ⟨z, rfl, fun r ⟨v, hv, hr'⟩ => ?_⟩, fun _ => rfl, fun _ _ _ _ _ h => .of_sim ?_ fun e h => by cases h⟩
    · rw [e]; exact EReal.coe_eq_coe_iff.1 (Option.some.inj (hr'.symm.trans hr))
    · unfold Expr.eval; dsimp only; rw [h.chk, ← hz]; exact Sim.lift _
  | un o e ih =>
    obtain ⟨ho, hS, hs⟩ := hs
    obtain ⟨r₀, v, hv, a₀, s₀, hr, hr₀, -⟩ := hd
    obtain ⟨q, N, h1, h2, h3⟩ := ih hs ⟨a₀, v, hv, hr⟩
    exact h3.step (g := fun P x => o.I P x) h1 h2
      (fun x hx => (UnOp.I_out hB hV o (fun h => hi (ho h)) hS ⟨a₀, hx ⟨v, hv, hr⟩, s₀, hr₀⟩).close hR |>.mono
        fun r ⟨v, hv, a, s, ha, h, hr⟩ => ⟨s, ⟨a, hx ⟨v, hv, ha⟩, h⟩, hr⟩) fun x _ _ _ h => UnOp.I_sim h o x
  | pow e k ih =>
    obtain ⟨hG, hk, ho, hs⟩ := hs
    obtain ⟨r₀, v, hv, a₀, hr, ha₀, -⟩ := hd
    obtain ⟨q, N, h1, h2, h3⟩ := ih hs ⟨a₀, v, hv, hr⟩
    exact h3.step (g := fun P x => powI P x k) h1 h2
      (fun x hx => (powI_out hB hG (fun h => hi (ho h)) hk ⟨a₀, hx ⟨v, hv, hr⟩, ha₀⟩).close hR |>.mono
        fun r ⟨v, hv, a, ha, h, hr⟩ => ⟨_, ⟨a, hx ⟨v, hv, ha⟩, h, rfl⟩, hr⟩) fun x _ _ _ h => powI_sim h x k
  | bin o e₁ e₂ ih₁ ih₂ =>
    obtain ⟨ho, hs₁, hs₂⟩ := hs
    obtain ⟨r₀, v, hv, a₀, b₀, s₀, hr₁, hr₂, hr₀, -⟩ := hd
    obtain ⟨q, N, h1, h2, h3⟩ := ih₁ hs₁ ⟨a₀, v, hv, hr₁⟩
    obtain ⟨q', N', k1, k2, k3⟩ := ih₂ hs₂ ⟨b₀, v, hv, hr₂⟩
    obtain ⟨q'', N'', m1, m2, m3⟩ := h3.bind₂ (g := fun P x y => o.II P x y) (A' := fun z => {r | (Expr.bin o e₁ e₂).RoundedIn R ρ r} ⊆ γ z)
      h1 h2 k3 k1 k2
      (fun x y hx hy => (BinOp.II_out hB hV o (fun h => hi (ho h)) ⟨a₀, hx ⟨v, hv, hr₁⟩, b₀, hy ⟨v, hv, hr₂⟩, s₀, hr₀⟩).close hR |>.mono
        fun r ⟨v, hv, a, b, s, ha, hb, h, hr⟩ => ⟨s, ⟨a, hx ⟨v, hv, ha⟩, b, hy ⟨v, hv, hb⟩, h⟩, hr⟩) fun x y _ _ _ h => BinOp.II_sim h o x y
    exact ⟨q'', N'', m1, fun h => by
      have := (Bool.or_eq_false_iff.1 (show (e₁.nests || e₂.nests) = false from h)); exact m2 this.1 this.2, m3⟩
  | binL o t e ih =>
    obtain ⟨ho, hs⟩ := hs
    obtain ⟨r₀, v, hv, a₀, b₀, s₀, ht, hr, hr₀, -⟩ := hd
    obtain ⟨q, N, h1, h2, h3⟩ := ih hs ⟨b₀, v, hv, hr⟩
    exact h3.step (g := fun P x => o.TI P t x) h1 h2
      (fun x hx => (BinOp.TI_out hB hV o (fun h => hi (ho h)) ht ⟨b₀, hx ⟨v, hv, hr⟩, s₀, hr₀⟩).close hR |>.mono
        fun r ⟨v, hv, a, b, s, ht', hb, h, hr⟩ => ⟨s, ⟨b, hx ⟨v, hv, hb⟩,
          by rwa [EReal.coe_eq_coe_iff.1 (Option.some.inj (ht.symm.trans ht'))]⟩, hr⟩) fun x _ _ _ h => BinOp.TI_sim h o t x
  | binR o e t ih =>
    obtain ⟨r₀, v, hv, a₀, b₀, s₀, hr, ht, hr₀, -⟩ := hd
    obtain ⟨q, N, h1, h2, h3⟩ := ih hs ⟨a₀, v, hv, hr⟩
    exact h3.step (g := fun P x => o.IT P x t) h1 h2
      (fun x hx => (BinOp.IT_out hV o ht ⟨a₀, hx ⟨v, hv, hr⟩, s₀, hr₀⟩).close hR |>.mono
        fun r ⟨v, hv, a, b, s, ha, ht', h, hr⟩ => ⟨s, ⟨a, hx ⟨v, hv, ha⟩,
          by rwa [EReal.coe_eq_coe_iff.1 (Option.some.inj (ht.symm.trans ht'))]⟩, hr⟩) fun x _ _ _ h => BinOp.IT_sim h o x t
  | inter e₁ e₂ ih₁ ih₂ =>
    obtain ⟨hs₁, hs₂⟩ := hs
    obtain ⟨r₀, v, hv, s₀, hr₁, hr₂, -⟩ := hd
    obtain ⟨q, N, h1, h2, h3⟩ := ih₁ hs₁ ⟨s₀, v, hv, hr₁⟩
    obtain ⟨q', N', k1, k2, k3⟩ := ih₂ hs₂ ⟨s₀, v, hv, hr₂⟩
    obtain ⟨q'', N'', m1, m2, m3⟩ := h3.bind₂ (g := fun P x y => lift (intersect P.chk x y))
      (A' := fun z => {r | (Expr.inter e₁ e₂).RoundedIn R ρ r} ⊆ γ z) h1 h2 k3 k1 k2
      (fun x y hx hy => by
        obtain ⟨z, hz, e⟩ := C23_intersect V ⟨s₀, hx ⟨v, hv, hr₁⟩, hy ⟨v, hv, hr₂⟩⟩
        refine .inl ⟨z, hz, fun r ⟨v, hv, s, ha, hb, hr⟩ => hR z s r ?_ hr⟩
        rw [e]; exact ⟨hx ⟨v, hv, ha⟩, hy ⟨v, hv, hb⟩⟩)
      fun x y _ _ _ h => by rw [h.chk, pure_chk]; exact Sim.lift _
    exact ⟨q'', N'', m1, fun h => by
      have := (Bool.or_eq_false_iff.1 (show (e₁.nests || e₂.nests) = false from h)); exact m2 this.1 this.2, m3⟩
  | fn f e ih =>
    obtain ⟨hf, hs⟩ := hs
    obtain ⟨r₀, v, hv, a₀, hr, hr₀, -⟩ := hd
    obtain ⟨q, N, h1, h2, h3⟩ := ih hs ⟨a₀, v, hv, hr⟩
    obtain ⟨q', N', k1, k2, k3⟩ := h3.bind (g := fun fuel P x => f.I K fuel P x) (A' := fun z => {r | (Expr.fn f e).RoundedIn R ρ r} ⊆ γ z)
      (l₂ := (f.uses == .cos) = false) h1 h2 fun x hx => by
        obtain ⟨q, N, h1, h2, h3⟩ := Fn.I_out hB f hV hi hf ⟨a₀, hx ⟨v, hv, hr⟩, hr₀⟩
        have h1 := (h1.close hR).mono (S' := {r | (Expr.fn f e).RoundedIn R ρ r}) (by
          rintro r ⟨v, hv, a, ha, h, hr⟩
          exact ⟨_, ⟨a, ⟨hx ⟨v, hv, ha⟩, h⟩, rfl⟩, hr⟩)
        refine ⟨q, N, h1, h2, fun fuel hn _ _ _ h => .of_sim (h3 fuel hn ▸ Fn.I_sim V h f x) ?_⟩
        exact h1.elim (fun ⟨z, hz, _⟩ e h => by cases hz.symm.trans h) fun ⟨e', he, hz⟩ e h => by cases hz.symm.trans h; exact he
    exact ⟨q', N', k1, fun h => by
      have := (Bool.or_eq_false_iff.1 (show (f.uses == .cos || e.nests) = false from h)); exact k2 this.2 this.1, k3⟩

/-- Values at the points of the operands. -/
def Expr.ValueIn (ρ : ℕ → Itv T) (e : Expr T) (r : ℝ) : Prop := ∃ v : ℕ → ℝ, (∀ i, v i ∈ γ (ρ i)) ∧ e.Value v r

theorem Expr.eval_post {K : PiConst T} {inf B : Prop} (hB : B → V.NoInf) (hV : V.Directed) (hi : inf → InfBase T ∨ B) (ρ : ℕ → Itv T)
    (e : Expr T) (hs : e.Supported V K inf) (hd : ∃ r, e.ValueIn ρ r) :
    ∃ q N, Out B {r | e.ValueIn ρ r} q ∧ (e.nests = false → N = 0) ∧
      Settles V (fun e => B ∧ e = .assertion) (fun fuel P => e.eval K fuel P ρ) N q := by
  have h : ∀ r, e.RoundedIn Eq ρ r ↔ e.ValueIn ρ r := fun r =>
    exists_congr fun v => and_congr_right fun _ => e.value_iff v r
  have := e.eval_rounded (R := Eq) (fun _ _ _ h e => e ▸ h) hB hV hi ρ hs (by simpa only [h] using hd)
  simpa only [h] using this
end

end BI
