import Verif.Proofs.Isotone
import Verif.Proofs.NoInf
/-! # Evaluation of expressions on nested intervals, for base types without infinities -/

set_option linter.unusedSectionVars false

namespace BI
open Set NoInf

section
variable {T : Type} [Num T] [Val T] [NumLaws T] {V : Env T} {x x' y y' : Itv T} {t : T}

/-- As `NestedPair`, unless an assertion stops the evaluation on the larger operands. -/
def NestedOr (S : Set ℝ) (r r' : Res (Itv T)) : Prop := NestedPair S r r' ∨ r' = .error .assertion

omit [NumLaws T] in
theorem NestedOr.step {S S' : Set ℝ} {r r' : Res (Itv T)} {g : Itv T → Res (Itv T)} (h : NestedOr S r r')
    (hg : ∀ x x', S ⊆ γ x → γ x ⊆ γ x' → NestedOr S' (g x) (g x')) : NestedOr S' (r >>= g) (r' >>= g) := by
  rcases h with ⟨z, z', rfl, rfl, h1, h2⟩ | rfl
  · exact hg z z' h1 h2
  · exact .inr rfl

omit [NumLaws T] in
theorem NestedOr.step₂ {S₁ S₂ S' : Set ℝ} {r r' s s' : Res (Itv T)} {g : Itv T → Itv T → Res (Itv T)} (h : NestedOr S₁ r r')
    (k : NestedOr S₂ s s')
    (hg : ∀ x x' y y', S₁ ⊆ γ x → γ x ⊆ γ x' → S₂ ⊆ γ y → γ y ⊆ γ y' → NestedOr S' (g x y) (g x' y')) :
    NestedOr S' (pair r s >>= fun p => g p.1 p.2) (pair r' s' >>= fun p => g p.1 p.2) := by
  rcases h with ⟨z, z', rfl, rfl, h1, h2⟩ | rfl
  · rcases k with ⟨w, w', rfl, rfl, h3, h4⟩ | rfl
    · exact hg z z' w w' h1 h2 h3 h4
    · exact .inr rfl
  · exact .inr rfl

omit [NumLaws T] in
theorem NestedOr.weak {S S' : Set ℝ} {r r' : Res (Itv T)} (h : NestedOr S' r r') (hs : S ⊆ S') : NestedOr S r r' :=
  h.imp (fun ⟨z, z', h1, h2, h3, h4⟩ => ⟨z, z', h1, h2, hs.trans h3, h4⟩) id

omit [NumLaws T] in
theorem NestedOr.image {S S₁ S₂ : Set ℝ} {r r' : Res (Itv T)} (h : ∃ z, r = .ok z ∧ γ z = S₁) (h' : ∃ z, r' = .ok z ∧ γ z = S₂)
    (h1 : S ⊆ S₁) (h2 : S₁ ⊆ S₂) : NestedOr S r r' := .inl (.image h h' h1 h2)

variable (hv : ∃ s : V.State, V.Valid s) (hV : V.Tight) (hn : V.NoInf)
include hv hV hn

theorem multInv_nestedOr (h : ∃ a ∈ γ x, a ≠ 0) (hxx : γ x ⊆ γ x') :
    NestedOr {r | ∃ a ∈ γ x, a ≠ 0 ∧ r = a⁻¹} (multInv V.pp x) (multInv V.pp x') := by
  obtain ⟨a, ha, ha0⟩ := h
  obtain ⟨c, d, iy⟩ := has_of_mem (hxx ha)
  by_cases h0 : (0 : ℝ) ∈ γ x'
  · exact .inr (inv_eq' hV.directed hn iy (fun k => ha0 ((zero_bounds iy).1 k (hxx ha))) ((mem_zero_iff iy).1 h0))
  · refine .inl (.of (V.outcomes hV.directed hv (fun _ h => multInv_sim h x) (fun _ h => multInv_sim h x')
      (C13_inverse_nz V hV ⟨a, ha⟩ hxx h0)) ?_)
    obtain ⟨c', d', ix⟩ := has_of_mem ha
    rw [multInv_eq V.chk ix]
    have hA := hV.dir (du_tight (T := T))
    refine (divTI_nz_post (r := 1) (hV.div du_tight) V.chk val_one ix fun h => h0 (hxx h)).mono fun z hz => ?_
    rintro _ ⟨b, hb, hb0, rfl⟩
    exact hz.encl hA.D_le hA.U_ge ⟨1, rfl, b, hb, hb0, (one_div b).symm⟩

theorem UnOp.I_nestedOr (o : UnOp) (hS : o = .sqrt → V.SqrtOk (IsRoundDown T) (IsRoundUp T))
    (h : ∃ a ∈ γ x, ∃ r, o.Rel a r) (hxx : γ x ⊆ γ x') :
    NestedOr {r | ∃ a ∈ γ x, o.Rel a r} (o.I V.pp x) (o.I V.pp x') := by
  by_cases ho : o = .inv
  · subst ho
    obtain ⟨a, ha, r, hr, -⟩ := h
    exact multInv_nestedOr hv hV hn ⟨a, ha, hr⟩ hxx
  · exact .inl (UnOp.I_nested hv hV o (fun h => absurd h ho) hS h hxx)

theorem BinOp.II_nestedOr (o : BinOp) (h : ∃ a ∈ γ x, ∃ b ∈ γ y, ∃ r, o.Rel a b r) (hxx : γ x ⊆ γ x') (hyy : γ y ⊆ γ y') :
    NestedOr {r | ∃ a ∈ γ x, ∃ b ∈ γ y, o.Rel a b r} (o.II V.pp x y) (o.II V.pp x' y') := by
  by_cases ho : o = .div
  · subst ho
    obtain ⟨a, ha, b, hb, r, hb0, -⟩ := h
    obtain ⟨_, _, ix⟩ := has_of_mem ha
    obtain ⟨_, _, iy⟩ := has_of_mem hb
    obtain ⟨_, _, ix'⟩ := has_of_mem (hxx ha)
    obtain ⟨_, _, iy'⟩ := has_of_mem (hyy hb)
    have hne := fun k => hb0 ((zero_bounds iy).1 k hb)
    have hne' := fun k => hb0 ((zero_bounds iy').1 k (hyy hb))
    have hz : ∀ z : Itv T, γ z ⊆ {0} → γ x ⊆ γ z → {r | ∃ a ∈ γ x, ∃ b ∈ γ y, BinOp.div.Rel a b r} ⊆ γ z := by
      rintro z hz hxz r ⟨p, hp, q, -, -, rfl⟩
      have : p = 0 := hz (hxz hp)
      subst this
      rw [zero_div]; exact hxz hp
    by_cases h0 : (0 : ℝ) ∈ γ y'
    · by_cases hx : γ x' ⊆ {0}
      · have e' := divZ_eq (V := V) ix' iy' ((zero_bounds ix').2 hx) hne' ((mem_zero_iff iy').1 h0)
        by_cases h1 : (0 : ℝ) ∈ γ y
        · have e := divZ_eq (V := V) ix iy ((zero_bounds ix).2 (hxx.trans hx)) hne ((mem_zero_iff iy).1 h1)
          exact .inl ⟨x, x', e, e', hz x (hxx.trans hx) subset_rfl, hxx⟩
        · have hA := hV.dir (du_tight (T := T))
          obtain ⟨z, e, k⟩ := (divII_nz_post (hV.div du_tight) V.chk ix iy h1).total
          have a0 : a = 0 := hx (hxx ha)
          refine .inl ⟨z, x', e, e', ?_, ?_⟩
          · rintro r ⟨p, hp, q, hq, hq0, rfl⟩
            exact k.encl hA.D_le hA.U_ge ⟨p, hp, q, hq, hq0, rfl⟩
          · refine ((k.smallest ⟨_, a, ha, b, hb, hb0, rfl⟩).2 x' ?_).1
            rintro r ⟨p, hp, q, hq, hq0, rfl⟩
            have : p = 0 := hx (hxx hp)
            subst this
            rw [zero_div]; exact hxx hp
      · exact .inr (div_eq hV.directed hn ix' iy' (fun k => hx ((zero_bounds ix').1 k)) hne' ((mem_zero_iff iy').1 h0))
    · have hA := hV.dir (du_tight (T := T))
      refine .inl (.of (V.outcomes hV.directed hv (fun _ h => divII_sim h x y) (fun _ h => divII_sim h x' y')
        (C13_div_nz V hV ⟨a, ha⟩ ⟨b, hb⟩ hxx hyy h0)) ((divII_nz_post (hV.div du_tight) V.chk ix iy fun h => h0 (hyy h)).mono
          fun z k => ?_))
      rintro r ⟨p, hp, q, hq, hq0, rfl⟩
      exact k.encl hA.D_le hA.U_ge ⟨p, hp, q, hq, hq0, rfl⟩
  · exact .inl (BinOp.II_nested hv hV o (fun h => absurd h ho) h hxx hyy)

theorem BinOp.TI_nestedOr (o : BinOp) {a : ℝ} (ht : val t = some (a : EReal)) (h : ∃ b ∈ γ y, ∃ r, o.Rel a b r) (hyy : γ y ⊆ γ y') :
    NestedOr {r | ∃ b ∈ γ y, o.Rel a b r} (o.TI V.pp t y) (o.TI V.pp t y') := by
  by_cases ho : o = .div
  · subst ho
    obtain ⟨b, hb, r, hb0, -⟩ := h
    obtain ⟨_, _, iy⟩ := has_of_mem hb
    obtain ⟨_, _, iy'⟩ := has_of_mem (hyy hb)
    have hne := fun k => hb0 ((zero_bounds iy).1 k hb)
    have hne' := fun k => hb0 ((zero_bounds iy').1 k (hyy hb))
    have hA := hV.dir (du_tight (T := T))
    have h00 : (0 : ℝ) ∈ γ (⟨Num.lit 0, Num.lit 0⟩ : Itv T) := ⟨_, _, val_zero, val_zero, by simp, by simp⟩
    by_cases h0 : (0 : ℝ) ∈ γ y'
    · by_cases hr : a = 0
      · subst hr
        have e' := divTZ_eq (V := V) ht iy' hne' ((mem_zero_iff iy').1 h0)
        by_cases h1 : (0 : ℝ) ∈ γ y
        · have e := divTZ_eq (V := V) ht iy hne ((mem_zero_iff iy).1 h1)
          refine .inl ⟨_, _, e, e', ?_, subset_rfl⟩
          rintro r ⟨q, -, -, rfl⟩
          rw [zero_div]; exact h00
        · obtain ⟨z, e, k⟩ := (divTI_nz_post (hV.div du_tight) V.chk ht iy h1).total
          refine .inl ⟨z, _, e, e', ?_, ((k.smallest ⟨_, 0, rfl, b, hb, hb0, rfl⟩).2 _ ?_).1⟩
          · rintro r ⟨q, hq, hq0, rfl⟩
            exact k.encl hA.D_le hA.U_ge ⟨0, rfl, q, hq, hq0, rfl⟩
          · rintro r ⟨p, rfl, q, hq, hq0, rfl⟩
            rw [zero_div]; exact h00
      · exact .inr (divT_eq hV.directed hn ht hr iy' hne' ((mem_zero_iff iy').1 h0))
    · obtain ⟨z, e, k⟩ := (divTI_nz_post (hV.div du_tight) V.chk ht iy fun h => h0 (hyy h)).total
      obtain ⟨z', e', k'⟩ := (divTI_nz_post (hV.div du_tight) V.chk ht iy' h0).total
      refine .inl ⟨z, z', e, e', ?_, ((k.smallest ⟨_, a, rfl, b, hb, hb0, rfl⟩).2 z' ?_).1⟩
      · rintro r ⟨q, hq, hq0, rfl⟩
        exact k.encl hA.D_le hA.U_ge ⟨a, rfl, q, hq, hq0, rfl⟩
      · rintro r ⟨p, rfl, q, hq, hq0, rfl⟩
        exact k'.encl hA.D_le hA.U_ge ⟨p, rfl, q, hyy hq, hq0, rfl⟩
  · exact .inl (BinOp.TI_nested hv hV o (fun h => absurd h ho) ht h hyy)

theorem powI_nestedOr {k : ℤ} (hk : k ≠ -2147483648) (h : ∃ a ∈ γ x, a ≠ 0 ∨ 0 < k) (hxx : γ x ⊆ γ x') :
    NestedOr {r | ∃ a ∈ γ x, (a ≠ 0 ∨ 0 < k) ∧ r = a ^ k} (powI V.pp x k) (powI V.pp x' k) := by
  by_cases hneg : k < 0
  · obtain ⟨a, ha, ho⟩ := h
    have ha0 := ho.resolve_right (by omega)
    clear ho
    obtain ⟨n, hn1, rfl⟩ : ∃ n : ℕ, 0 < n ∧ k = -(n : ℤ) := ⟨(-k).toNat, by omega, by omega⟩
    have e : ∀ {z : Itv T}, (γ z).Nonempty → powI V.pp z (-(n : ℤ)) = powI V.pp z n >>= fun p => multInv V.pp p := by
      intro z hz
      obtain ⟨_, _, iz⟩ := has_of_nonempty hz
      unfold powI
      rw [pure_chk, res_if_false (iz.test V.chk), if_pos hneg, if_neg (show ¬ _ = intMin from hk), res_if_false (iz.test V.chk),
        if_neg (by omega)]
      simp
    rw [e ⟨a, ha⟩, e ⟨a, hxx ha⟩]
    refine NestedOr.step (.inl (powI_nested hv hV (k := n) (by omega) (fun h => by omega) ⟨a, ha, .inl ha0⟩ hxx))
      fun p p' hp hpp => (multInv_nestedOr hv hV hn (x := p) ⟨a ^ n, hp ⟨a, ha, .inl ha0, by simp⟩, pow_ne_zero _ ha0⟩ hpp).weak ?_
    rintro r ⟨b, hb, hb0, rfl⟩
    have hb0 := hb0.resolve_right (by omega)
    exact ⟨b ^ n, hp ⟨b, hb, .inl hb0, by simp⟩, pow_ne_zero _ hb0, by simp⟩
  · exact .inl (powI_nested hv hV hk (fun h => absurd h hneg) h hxx)

theorem Fn.I_nestedOr {K : PiConst T} {fuel : ℕ} (f : Fn) (hs : f.simple = true) (hf : V.FnOk (IsRoundDown T) (IsRoundUp T) f)
    (hK : Neighbours K) (h : (γ x ∩ f.dom).Nonempty) (hxx : γ x ⊆ γ x') :
    NestedOr (f.real '' (γ x ∩ f.dom)) (f.I K fuel V.pp x) (f.I K fuel V.pp x') := by
  by_cases hu : f.unbounded = true
  · have h' : (γ x' ∩ f.dom).Nonempty := h.mono (inter_subset_inter_left _ hxx)
    have key : ∀ {r r' : Res (Itv T)}, Post True r (Bnd (IsRoundDown T) (IsRoundUp T) (f.real '' (γ x ∩ f.dom))) →
        Post True r' (Bnd (IsRoundDown T) (IsRoundUp T) (f.real '' (γ x' ∩ f.dom))) → NestedOr (f.real '' (γ x ∩ f.dom)) r r' := by
      intro r r' k k'
      obtain ⟨z, e, k⟩ := k.total
      obtain ⟨z', e', k'⟩ := k'.total
      exact .inl ⟨z, z', e, e', k.encl (du_tight (T := T)).D_le (du_tight (T := T)).U_ge,
        (k.smallest (h.image _)).mono (k'.smallest (h'.image _)) (image_mono (inter_subset_inter_left _ hxx))⟩
    obtain ⟨r₀, h1, h2⟩ := id h
    obtain ⟨a, b, ix⟩ := has_of_mem h1
    obtain ⟨a', b', ix'⟩ := has_of_mem (hxx h1)
    obtain ⟨l1, l2⟩ := ix.subset ix' hxx
    cases f with
    | log =>
      by_cases ha : 0 < a'
      · exact key (logI_post du_tight (fun h => absurd (ha.trans_le l1) h) hf ix h) (logI_post du_tight (fun h => absurd ha h) hf ix' h')
      · exact .inr (log_eq hn ix' ha (lt_of_lt_of_le (by exact_mod_cast h2) (ix'.ub (hxx h1))))
    | atanh =>
      by_cases hab : a' ≤ -1 ∨ 1 ≤ b'
      · exact .inr (atanh_eq hn du_tight hf ix' h' hab)
      · exact key (atanhI_post du_tight (fun h => absurd (h.imp l1.trans fun h => h.trans l2) hab) hf ix h)
          (atanhI_post du_tight (fun h => absurd h hab) hf ix' h')
    | tan => cases hs
    | _ => cases hu
  · exact .inl (Fn.I_nested hv hV f hs hf hK (fun h => absurd h hu) h hxx)

omit hv hV hn in
theorem Ends.bind {W : Type} {I : Inv W} {E : Err → Prop} {α β : Type} {a : M W α} {r : Res α} {f : α → M W β} {g : α → Res β}
    (h : Ends I E a r) (hf : ∀ x, Ends I E (f x) (g x)) : Ends I E (a >>= f) (r >>= g) := by
  cases r with
  | error e => exact h.bind_err
  | ok x => exact h.bind_ok (hf x)

omit hv hV hn in
/-- The machine returns what the mode-free evaluation returns, and throws where that throws. -/
theorem Expr.eval_ends {K : PiConst T} {fuel : ℕ} {I J : Inv V.ctl.W} {P : Policies (M V.ctl.W) T} (h : PSim I J P V.B V.C)
    (ρ : ℕ → Itv T) (e : Expr T) : Ends I (fun _ => True) (e.eval K fuel P ρ) (e.eval K fuel V.pp ρ) := by
  have one : ∀ {α : Type} {a : M V.ctl.W α} {r : Res α}, Sim I a r → Ends I (fun _ => True) a r := fun h => .of_sim h fun _ _ => trivial
  induction e with
  | var i => exact one (Sim.pure _)
  | num t =>
    refine one ?_
    change Sim I (lift (ctorT P.chk t)) (lift (ctorT V.pp.chk t))
    rw [h.chk, pure_chk]; exact Sim.lift _
  | un o e ih => exact ih.bind fun x => one (UnOp.I_sim h o x)
  | pow e k ih => exact ih.bind fun x => one (powI_sim h x k)
  | bin o e₁ e₂ ih₁ ih₂ => exact (ih₁.pair ih₂).bind fun p => one (BinOp.II_sim h o p.1 p.2)
  | binL o t e ih => exact ih.bind fun x => one (BinOp.TI_sim h o t x)
  | binR o e t ih => exact ih.bind fun x => one (BinOp.IT_sim h o x t)
  | inter e₁ e₂ ih₁ ih₂ =>
    refine (ih₁.pair ih₂).bind fun p => one ?_
    rw [h.chk, pure_chk]; exact Sim.lift _
  | fn f e ih => exact ih.bind fun x => one (Fn.I_sim V h f x)

theorem Expr.eval_nestedOr {K : PiConst T} {fuel : ℕ} {ρ ρ' : ℕ → Itv T} (hρ : ∀ i, γ (ρ i) ⊆ γ (ρ' i)) (e : Expr T)
    (hs : e.Sharp V K True) (hd : ∃ r, e.ValueIn ρ r) :
    NestedOr {r | e.ValueIn ρ r} (e.eval K fuel V.pp ρ) (e.eval K fuel V.pp ρ') := by
  induction e with
  | var i => exact .inl ⟨ρ i, ρ' i, rfl, rfl, fun r ⟨v, hv, hr⟩ => hr ▸ hv i, hρ i⟩
  | num t =>
    obtain ⟨r₀, v, -, hr⟩ := hd
    obtain ⟨z, hz, -, -, e⟩ := C36_num V hr
    refine .inl ⟨z, z, hz, hz, fun r ⟨v, hv, hr'⟩ => ?_, subset_rfl⟩
    rw [e]; exact EReal.coe_eq_coe_iff.1 (Option.some.inj (hr'.symm.trans hr))
  | un o e ih =>
    obtain ⟨-, hS, hs⟩ := hs
    obtain ⟨r₀, v, hv', a₀, hr, hr₀⟩ := hd
    exact (ih hs ⟨a₀, v, hv', hr⟩).step fun x x' hx hxx =>
      (UnOp.I_nestedOr hv hV hn o hS ⟨a₀, hx ⟨v, hv', hr⟩, r₀, hr₀⟩ hxx).weak fun r ⟨v, hv, a, ha, h⟩ => ⟨a, hx ⟨v, hv, ha⟩, h⟩
  | pow e k ih =>
    obtain ⟨hk, -, hs⟩ := hs
    obtain ⟨r₀, v, hv', a₀, hr, hr₀, -⟩ := hd
    exact (ih hs ⟨a₀, v, hv', hr⟩).step (g := fun x => powI V.pp x k) fun x x' hx hxx =>
      (powI_nestedOr hv hV hn hk ⟨a₀, hx ⟨v, hv', hr⟩, hr₀⟩ hxx).weak fun r ⟨v, hv, a, ha, h⟩ => ⟨a, hx ⟨v, hv, ha⟩, h⟩
  | bin o e₁ e₂ ih₁ ih₂ =>
    obtain ⟨-, hs₁, hs₂⟩ := hs
    obtain ⟨r₀, v, hv', a₀, b₀, hr₁, hr₂, hr₀⟩ := hd
    exact (ih₁ hs₁ ⟨a₀, v, hv', hr₁⟩).step₂ (g := fun x y => o.II V.pp x y) (ih₂ hs₂ ⟨b₀, v, hv', hr₂⟩) fun x x' y y' hx hxx hy hyy =>
      (BinOp.II_nestedOr hv hV hn o ⟨a₀, hx ⟨v, hv', hr₁⟩, b₀, hy ⟨v, hv', hr₂⟩, r₀, hr₀⟩ hxx hyy).weak
        fun r ⟨v, hv, a, b, ha, hb, h⟩ => ⟨a, hx ⟨v, hv, ha⟩, b, hy ⟨v, hv, hb⟩, h⟩
  | binL o t e ih =>
    obtain ⟨-, hs⟩ := hs
    obtain ⟨r₀, v, hv', a₀, b₀, ht, hr, hr₀⟩ := hd
    exact (ih hs ⟨b₀, v, hv', hr⟩).step (g := fun x => o.TI V.pp t x) fun x x' hx hxx =>
      (BinOp.TI_nestedOr hv hV hn o ht ⟨b₀, hx ⟨v, hv', hr⟩, r₀, hr₀⟩ hxx).weak
        fun r ⟨v, hv, a, b, ht', hb, h⟩ => ⟨b, hx ⟨v, hv, hb⟩, by rwa [EReal.coe_eq_coe_iff.1 (Option.some.inj (ht.symm.trans ht'))]⟩
  | binR o e t ih =>
    obtain ⟨r₀, v, hv', a₀, b₀, hr, ht, hr₀⟩ := hd
    exact (ih hs ⟨a₀, v, hv', hr⟩).step (g := fun x => o.IT V.pp x t) fun x x' hx hxx =>
      NestedOr.weak (.inl (BinOp.IT_nested hv hV o ht ⟨a₀, hx ⟨v, hv', hr⟩, r₀, hr₀⟩ hxx))
        fun r ⟨v, hv, a, b, ha, ht', h⟩ => ⟨a, hx ⟨v, hv, ha⟩, by rwa [EReal.coe_eq_coe_iff.1 (Option.some.inj (ht.symm.trans ht'))]⟩
  | inter e₁ e₂ ih₁ ih₂ =>
    obtain ⟨hs₁, hs₂⟩ := hs
    obtain ⟨r₀, v, hv', hr₁, hr₂⟩ := hd
    refine (ih₁ hs₁ ⟨r₀, v, hv', hr₁⟩).step₂ (g := fun x y => lift (intersect V.pp.chk x y)) (ih₂ hs₂ ⟨r₀, v, hv', hr₂⟩)
      fun x x' y y' hx hxx hy hyy => ?_
    have h₀ : r₀ ∈ γ x ∩ γ y := ⟨hx ⟨v, hv', hr₁⟩, hy ⟨v, hv', hr₂⟩⟩
    exact .image (C23_intersect V ⟨r₀, h₀⟩) (C23_intersect V ⟨r₀, hxx h₀.1, hyy h₀.2⟩)
      (fun r ⟨v, hv, ha, hb⟩ => ⟨hx ⟨v, hv, ha⟩, hy ⟨v, hv, hb⟩⟩) (inter_subset_inter hxx hyy)
  | fn f e ih =>
    obtain ⟨⟨hK, hf, -, h1⟩, hs⟩ := hs
    obtain ⟨r₀, v, hv', a₀, hr, hr₀, -⟩ := hd
    exact (ih hs ⟨a₀, v, hv', hr⟩).step (g := fun x => f.I K fuel V.pp x) fun x x' hx hxx =>
      (Fn.I_nestedOr hv hV hn f h1 hf hK ⟨a₀, hx ⟨v, hv', hr⟩, hr₀⟩ hxx).weak
        fun r ⟨v, hv, a, ha, hd, h⟩ => ⟨a, ⟨hx ⟨v, hv, ha⟩, hd⟩, h.symm⟩

omit hv hn in
/-- What makes results narrow makes them enclosures. -/
theorem Expr.Sharp.supported {K : PiConst T} {inf : Prop} {e : Expr T} (hs : e.Sharp V K inf) : e.Supported V K inf ∧ e.nests = false := by
  induction e with
  | var i => exact ⟨trivial, rfl⟩
  | num t => exact ⟨trivial, rfl⟩
  | un o e ih =>
    obtain ⟨h1, h2, h3⟩ := hs
    exact ⟨⟨h1, fun h => (h2 h).mono (fun h => h.2.1) fun h => h.2.1, (ih h3).1⟩, (ih h3).2⟩
  | pow e k ih =>
    obtain ⟨h1, h2, h3⟩ := hs
    exact ⟨⟨hV.signed, h1, h2, (ih h3).1⟩, (ih h3).2⟩
  | bin o e₁ e₂ ih₁ ih₂ =>
    obtain ⟨h1, h2, h3⟩ := hs
    exact ⟨⟨h1, (ih₁ h2).1, (ih₂ h3).1⟩, Bool.or_eq_false_iff.2 ⟨(ih₁ h2).2, (ih₂ h3).2⟩⟩
  | binL o t e ih => exact ⟨⟨hs.1, (ih hs.2).1⟩, (ih hs.2).2⟩
  | binR o e t ih => exact ⟨(ih hs).1, (ih hs).2⟩
  | inter e₁ e₂ ih₁ ih₂ => exact ⟨⟨(ih₁ hs.1).1, (ih₂ hs.2).1⟩, Bool.or_eq_false_iff.2 ⟨(ih₁ hs.1).2, (ih₂ hs.2).2⟩⟩
  | fn f e ih =>
    obtain ⟨⟨hK, hf, hi, h1⟩, hs⟩ := hs
    have hu : f.uses = f := by cases f <;> first | rfl | cases h1
    refine ⟨⟨⟨?_, ?_, hi, fun h => by rw [h1] at h; cases h⟩, (ih hs).1⟩, ?_⟩
    · exact ⟨hK.1.1 rfl, hK.2.1.1 rfl, hK.2.2.1 rfl⟩
    · rw [hu]
      exact hf.imp (fun ⟨hk, hB⟩ => ⟨hk, fun a x e ha he => (hB a x e ha he).mono (fun h => h.2.1) fun h => h.2.1⟩) id
    · change (f.uses == .cos || e.nests) = false
      rw [(ih hs).2, hu]
      cases f <;> first | rfl | cases h1

end

end BI
