import Verif.Proofs.Refine
import Verif.Proofs.IsotoneNoInf
/-! # Evaluation of one expression with numbers of two types, the coarser of which has no infinities -/

set_option linter.unusedSectionVars false

namespace BI.Refine
open Set BI NoInf

theorem _root_.BI.Expr.nests_conv {T U : Type} (φ : T → U) (e : Expr T) : (e.conv φ).nests = e.nests := by
  induction e <;> simp_all [Expr.conv, Expr.nests]

section
variable {T U : Type} [Val T] [Val U]

/-- As `Nest`, unless an assertion stops the evaluation in the coarser type. -/
def NestOr (S : Set ℝ) (r : Res (Itv U)) (r' : Res (Itv T)) : Prop := Nest S r r' ∨ r' = .error .assertion

theorem NestOr.step {S S' : Set ℝ} {r : Res (Itv U)} {r' : Res (Itv T)} {g : Itv U → Res (Itv U)} {g' : Itv T → Res (Itv T)}
    (h : NestOr S r r') (hg : ∀ x x', S ⊆ γ x' → γ x' ⊆ γ x → NestOr S' (g x') (g' x)) : NestOr S' (r >>= g) (r' >>= g') := by
  rcases h with ⟨z, z', rfl, rfl, h1, h2⟩ | rfl
  · exact hg z' z h1 h2
  · exact .inr rfl

theorem NestOr.step₂ {S₁ S₂ S' : Set ℝ} {r s : Res (Itv U)} {r' s' : Res (Itv T)} {g : Itv U → Itv U → Res (Itv U)}
    {g' : Itv T → Itv T → Res (Itv T)} (h : NestOr S₁ r r') (k : NestOr S₂ s s')
    (hg : ∀ x x' y y', S₁ ⊆ γ x' → γ x' ⊆ γ x → S₂ ⊆ γ y' → γ y' ⊆ γ y → NestOr S' (g x' y') (g' x y)) :
    NestOr S' (pair r s >>= fun p => g p.1 p.2) (pair r' s' >>= fun p => g' p.1 p.2) := by
  rcases h with ⟨z, z', rfl, rfl, h1, h2⟩ | rfl
  · rcases k with ⟨w, w', rfl, rfl, h3, h4⟩ | rfl
    · exact hg z' z w' w h1 h2 h3 h4
    · exact .inr rfl
  · exact .inr rfl

theorem NestOr.weak {S S' : Set ℝ} {r : Res (Itv U)} {r' : Res (Itv T)} (h : NestOr S' r r') (hs : S ⊆ S') : NestOr S r r' :=
  h.imp (fun ⟨z, z', h1, h2, h3, h4⟩ => ⟨z, z', h1, h2, hs.trans h3, h4⟩) id
end

section
variable {T U : Type} [Num T] [Val T] [NumLaws T] [Num U] [Val U] [NumLaws U] {φ : T → U} {V : Env T} {W : Env U}
  {x y : Itv T} {x' y' : Itv U} {t : T}

/-- The tightest bounds in the finer type against any bounds in the coarser one. -/
theorem NestOr.bnd (hφ : Lossless φ) {S S' : Set ℝ} {r : Res (Itv U)} {r' : Res (Itv T)} (hne : S.Nonempty)
    (k : Post True r (Bnd (IsRoundDown U) (IsRoundUp U) S)) (k' : Post True r' (Bnd LeB GeB S')) (h : S ⊆ S') : NestOr S r r' := by
  obtain ⟨z, e, k⟩ := k.total
  refine .inl (.least hφ (least ⟨z, e, k.smallest hne⟩ rfl) (k'.mono fun w hw => ?_))
  exact h.trans (hw.encl (du_weak (T := T)).D_le (du_weak (T := T)).U_ge)

variable (hφ : Lossless φ) (hv : ∃ s : W.State, W.Valid s) (hV : V.Directed) (hn : V.NoInf) (hW : W.Tight)
include hφ hv hV hn hW

theorem multInv_nestOr (h : ∃ a ∈ γ x', a ≠ 0) (hxx : γ x' ⊆ γ x) :
    NestOr {r | ∃ a ∈ γ x', a ≠ 0 ∧ r = a⁻¹} (multInv W.pp x') (multInv V.pp x) := by
  obtain ⟨a, ha, ha0⟩ := h
  obtain ⟨c, d, ix⟩ := has_of_mem (hxx ha)
  obtain ⟨c', d', ix'⟩ := has_of_mem ha
  by_cases h0 : (0 : ℝ) ∈ γ x
  · exact .inr (inv_eq' hV hn ix (fun k => ha0 ((zero_bounds ix).1 k (hxx ha))) ((mem_zero_iff ix).1 h0))
  · have e : {r | ∃ a ∈ γ x', a ≠ 0 ∧ r = a⁻¹} = quot {1} (γ x') := by
      ext r; exact ⟨fun ⟨a, ha, h, e⟩ => ⟨1, rfl, a, ha, h, e.trans (one_div a).symm⟩, fun ⟨p, hp, a, ha, h, e⟩ => ⟨a, ha, h, by
        rw [e, show p = 1 from hp, one_div]⟩⟩
    rw [e, multInv_eq W.chk ix', multInv_eq V.chk ix]
    exact .bnd hφ ⟨_, 1, rfl, a, ha, ha0, rfl⟩ (divTI_nz_post (r := 1) (hW.div du_tight) W.chk val_one ix' fun h => h0 (hxx h))
      (divTI_nz_post (r := 1) (hV.div du_weak) V.chk val_one ix h0) fun r ⟨p, hp, q, hq, h⟩ => ⟨p, hp, q, hxx hq, h⟩

theorem UnOp.I_nestOr (o : UnOp) (hS : o = .sqrt → V.SqrtOk LeB GeB) (hS' : o = .sqrt → W.SqrtOk (IsRoundDown U) (IsRoundUp U))
    (h : ∃ a ∈ γ x', ∃ r, o.Rel a r) (hxx : γ x' ⊆ γ x) :
    NestOr {r | ∃ a ∈ γ x', o.Rel a r} (o.I W.pp x') (o.I V.pp x) := by
  by_cases ho : o = .inv
  · subst ho
    obtain ⟨a, ha, r, hr, -⟩ := h
    exact multInv_nestOr hφ hv hV hn hW ⟨a, ha, hr⟩ hxx
  · exact .inl (UnOp.I_nest hφ hv hV hW o (fun h => absurd h ho) (fun h => absurd h ho) hS hS' h hxx)

theorem BinOp.II_nestOr (o : BinOp) (h : ∃ a ∈ γ x', ∃ b ∈ γ y', ∃ r, o.Rel a b r) (hxx : γ x' ⊆ γ x) (hyy : γ y' ⊆ γ y) :
    NestOr {r | ∃ a ∈ γ x', ∃ b ∈ γ y', o.Rel a b r} (o.II W.pp x' y') (o.II V.pp x y) := by
  by_cases ho : o = .div
  · subst ho
    obtain ⟨a, ha, b, hb, r, hb0, -⟩ := h
    obtain ⟨_, _, ix'⟩ := has_of_mem ha
    obtain ⟨_, _, iy'⟩ := has_of_mem hb
    obtain ⟨_, _, ix⟩ := has_of_mem (hxx ha)
    obtain ⟨_, _, iy⟩ := has_of_mem (hyy hb)
    have hne := fun k => hb0 ((zero_bounds iy).1 k (hyy hb))
    have hne' := fun k => hb0 ((zero_bounds iy').1 k hb)
    have hq : (quot (γ x') (γ y')).Nonempty := ⟨_, a, ha, b, hb, hb0, rfl⟩
    change NestOr (quot (γ x') (γ y')) _ _
    by_cases h0 : (0 : ℝ) ∈ γ y
    · by_cases hx : γ x ⊆ {0}
      · have e := divZ_eq (V := V) ix iy ((zero_bounds ix).2 hx) hne ((mem_zero_iff iy).1 h0)
        have hz : ∀ {X : Type} [Val X] {z : Itv X}, γ x' ⊆ γ z → quot (γ x') (γ y') ⊆ γ z := by
          rintro X _ z hz r ⟨p, hp, q, -, -, rfl⟩
          have : p = 0 := hx (hxx hp)
          subst this
          rw [zero_div]; exact hz hp
        by_cases h1 : (0 : ℝ) ∈ γ y'
        · have e' := divZ_eq (V := W) ix' iy' ((zero_bounds ix').2 (hxx.trans hx)) hne' ((mem_zero_iff iy').1 h1)
          exact .inl ⟨x', x, e', e, hz subset_rfl, hxx⟩
        · obtain ⟨z, e', k⟩ := (divII_nz_post (hW.div du_tight) W.chk ix' iy' h1).total
          refine .inl (.least hφ (least ⟨z, e', k.smallest hq⟩ rfl) (.of_ok ⟨x, e, hz hxx⟩))
      · exact .inr (div_eq hV hn ix iy (fun k => hx ((zero_bounds ix).1 k)) hne ((mem_zero_iff iy).1 h0))
    · exact .bnd hφ hq (divII_nz_post (hW.div du_tight) W.chk ix' iy' fun h => h0 (hyy h)) (divII_nz_post (hV.div du_weak) V.chk ix iy h0)
        fun r ⟨p, hp, q, hq, h⟩ => ⟨p, hxx hp, q, hyy hq, h⟩
  · exact .inl (BinOp.II_nest hφ hv hV hW o (fun h => absurd h ho) (fun h => absurd h ho) h hxx hyy)

theorem BinOp.TI_nestOr (o : BinOp) {a : ℝ} (ht : val t = some (a : EReal)) (h : ∃ b ∈ γ y', ∃ r, o.Rel a b r) (hyy : γ y' ⊆ γ y) :
    NestOr {r | ∃ b ∈ γ y', o.Rel a b r} (o.TI W.pp (φ t) y') (o.TI V.pp t y) := by
  by_cases ho : o = .div
  · subst ho
    obtain ⟨b, hb, r, hb0, -⟩ := h
    have ht' : val (φ t) = some (a : EReal) := (hφ t).trans ht
    obtain ⟨_, _, iy'⟩ := has_of_mem hb
    obtain ⟨_, _, iy⟩ := has_of_mem (hyy hb)
    have hne := fun k => hb0 ((zero_bounds iy).1 k (hyy hb))
    have hne' := fun k => hb0 ((zero_bounds iy').1 k hb)
    have hq : (quot {a} (γ y')).Nonempty := ⟨_, a, rfl, b, hb, hb0, rfl⟩
    have e : {r | ∃ b ∈ γ y', BinOp.div.Rel a b r} = quot {a} (γ y') := by
      ext r; exact ⟨fun ⟨b, hb, h⟩ => ⟨a, rfl, b, hb, h⟩, fun ⟨p, hp, b, hb, h⟩ => ⟨b, hb, by cases hp; exact h⟩⟩
    rw [e]
    by_cases h0 : (0 : ℝ) ∈ γ y
    · by_cases hr : a = 0
      · subst hr
        have e := divTZ_eq (V := V) ht iy hne ((mem_zero_iff iy).1 h0)
        have h00 : ∀ {X : Type} [Num X] [Val X] [NumLaws X], quot {0} (γ y') ⊆ γ (zeroI : Itv X) := by
          rintro X _ _ _ r ⟨p, rfl, q, -, -, rfl⟩
          rw [zero_div]; exact ⟨_, _, val_zero, val_zero, by simp, by simp⟩
        have h01 : γ (zeroI : Itv U) ⊆ γ (zeroI : Itv T) := by
          rintro r ⟨p, q, h1, h2, h3, h4⟩
          exact ⟨p, q, val_zero.trans (val_zero.symm.trans h1), val_zero.trans (val_zero.symm.trans h2), h3, h4⟩
        by_cases h1 : (0 : ℝ) ∈ γ y'
        · have e' := divTZ_eq (V := W) ht' iy' hne' ((mem_zero_iff iy').1 h1)
          exact .inl ⟨_, _, e', e, h00, h01⟩
        · obtain ⟨z, e', k⟩ := (divTI_nz_post (hW.div du_tight) W.chk ht' iy' h1).total
          exact .inl (.least hφ (least ⟨z, e', k.smallest hq⟩ rfl) (.of_ok ⟨_, e, h00⟩))
      · exact .inr (divT_eq hV hn ht hr iy hne ((mem_zero_iff iy).1 h0))
    · exact .bnd hφ hq (divTI_nz_post (hW.div du_tight) W.chk ht' iy' fun h => h0 (hyy h)) (divTI_nz_post (hV.div du_weak) V.chk ht iy h0)
        fun r ⟨p, hp, q, hq, h⟩ => ⟨p, hp, q, hyy hq, h⟩
  · exact .inl (BinOp.TI_nest hφ hv hV hW o (fun h => absurd h ho) (fun h => absurd h ho) ht h hyy)

omit hV in
theorem powI_nestOr (hV : V.Signed) {k : ℤ} (hk : k ≠ -2147483648) (h : ∃ a ∈ γ x', a ≠ 0 ∨ 0 < k) (hxx : γ x' ⊆ γ x) :
    NestOr {r | ∃ a ∈ γ x', (a ≠ 0 ∨ 0 < k) ∧ r = a ^ k} (powI W.pp x' k) (powI V.pp x k) := by
  by_cases hneg : k < 0
  · obtain ⟨a, ha, ho⟩ := h
    have ha0 := ho.resolve_right (by omega)
    clear ho
    obtain ⟨n, hn1, rfl⟩ : ∃ n : ℕ, 0 < n ∧ k = -(n : ℤ) := ⟨(-k).toNat, by omega, by omega⟩
    have e : ∀ {X : Type} [Num X] [Val X] [NumLaws X] {E : Env X} {z : Itv X}, (γ z).Nonempty →
        powI E.pp z (-(n : ℤ)) = powI E.pp z n >>= fun p => multInv E.pp p := by
      intro X _ _ _ E z hz
      obtain ⟨_, _, iz⟩ := has_of_nonempty hz
      unfold powI
      rw [pure_chk, res_if_false (iz.test E.chk), if_pos hneg, if_neg (show ¬ _ = intMin from hk), res_if_false (iz.test E.chk),
        if_neg (by omega)]
      simp
    rw [e ⟨a, ha⟩, e ⟨a, hxx ha⟩]
    refine NestOr.step (.inl (powI_nest hφ hW hV (k := n) (by omega) (fun h => by omega) (fun h => by omega) ⟨a, ha, .inl ha0⟩ hxx))
      fun p p' hp hpp => (multInv_nestOr hφ hv hV.directed hn hW (x' := p') ⟨a ^ n, hp ⟨a, ha, .inl ha0, by simp⟩, pow_ne_zero _ ha0⟩ hpp).weak ?_
    rintro r ⟨b, hb, hb0, rfl⟩
    have hb0 := hb0.resolve_right (by omega)
    exact ⟨b ^ n, hp ⟨b, hb, .inl hb0, by simp⟩, pow_ne_zero _ hb0, by simp⟩
  · exact .inl (powI_nest hφ hW hV hk (fun h => absurd h hneg) (fun h => absurd h hneg) h hxx)

theorem Fn.I_nestOr {K : PiConst T} {K' : PiConst U} {fuel fuel' : ℕ} (f : Fn) (hs : f.simple = true) (hf : V.ElemOk K True f)
    (hf' : W.FnOk (IsRoundDown U) (IsRoundUp U) f) (hK : Neighbours K') (h : (γ x' ∩ f.dom).Nonempty) (hxx : γ x' ⊆ γ x) :
    NestOr (f.real '' (γ x' ∩ f.dom)) (f.I K' fuel' W.pp x') (f.I K fuel V.pp x) := by
  by_cases hu : f.unbounded = true
  · obtain ⟨hB, hg, -, -⟩ := hf
    have hfu : f.uses = f := by cases f <;> first | rfl | cases hs
    rw [hfu] at hg
    have h' : (γ x ∩ f.dom).Nonempty := h.mono (inter_subset_inter_left _ hxx)
    have hm : f.real '' (γ x' ∩ f.dom) ⊆ f.real '' (γ x ∩ f.dom) := image_mono (inter_subset_inter_left _ hxx)
    obtain ⟨r₀, h1, h2⟩ := id h
    obtain ⟨a, b, ix⟩ := has_of_mem (hxx h1)
    obtain ⟨a', b', ix'⟩ := has_of_mem h1
    obtain ⟨l1, l2⟩ := has_sub ix' ix hxx
    cases f with
    | log =>
      by_cases ha : 0 < a
      · exact .bnd hφ (h.image _) (logI_post du_tight (fun h => absurd (ha.trans_le l1) h) hf' ix' h)
          (logI_post du_weak (fun h => absurd ha h) hg ix h') hm
      · exact .inr (log_eq hn ix ha (lt_of_lt_of_le (by exact_mod_cast h2) (ix.ub (hxx h1))))
    | atanh =>
      by_cases hab : a ≤ -1 ∨ 1 ≤ b
      · exact .inr (atanh_eq hn du_weak hg ix h' hab)
      · exact .bnd hφ (h.image _) (atanhI_post du_tight (fun h => absurd (h.imp l1.trans fun h => h.trans l2) hab) hf' ix' h)
          (atanhI_post du_weak (fun h => absurd h hab) hg ix h') hm
    | tan => cases hs
    | _ => cases hu
  · exact .inl (Fn.I_nest hφ hv hV hW f hs ⟨hf.1, hf.2.1, fun h => absurd h hu, hf.2.2.2⟩ hf' hK (fun h => absurd h hu) h hxx)

theorem Expr.eval_nestOr {K : PiConst T} {K' : PiConst U} {fuel fuel' : ℕ} {ρ : ℕ → Itv T} {ρ' : ℕ → Itv U} (hρ : ∀ i, γ (ρ' i) ⊆ γ (ρ i))
    (e : Expr T) (hs : e.Supported V K True) (hs' : (e.conv φ).Sharp W K' True) (hd : ∃ r, (e.conv φ).ValueIn ρ' r) :
    NestOr {r | (e.conv φ).ValueIn ρ' r} ((e.conv φ).eval K' fuel' W.pp ρ') (e.eval K fuel V.pp ρ) := by
  induction e with
  | var i => exact .inl ⟨ρ' i, ρ i, rfl, rfl, fun r ⟨v, hv, hr⟩ => hr ▸ hv i, hρ i⟩
  | num t =>
    obtain ⟨r₀, v, -, hr⟩ := hd
    obtain ⟨z, hz, -, -, e⟩ := C36_num W hr
    obtain ⟨z', hz', -, -, e'⟩ := C36_num V ((hφ t).symm.trans hr)
    refine .inl ⟨z, z', hz, hz', fun r ⟨v, hv, hr'⟩ => ?_, by rw [e, e']⟩
    rw [e]; exact EReal.coe_eq_coe_iff.1 (Option.some.inj (hr'.symm.trans hr))
  | un o e ih =>
    obtain ⟨-, hS, hs⟩ := hs
    obtain ⟨-, hS', hs'⟩ := hs'
    obtain ⟨r₀, v, hv', a₀, hr, hr₀⟩ := hd
    exact NestOr.step (ih hs hs' ⟨a₀, v, hv', hr⟩) fun x x' hx hxx =>
      (UnOp.I_nestOr hφ hv hV hn hW o hS hS' ⟨a₀, hx ⟨v, hv', hr⟩, r₀, hr₀⟩ hxx).weak fun r ⟨v, hv, a, ha, h⟩ => ⟨a, hx ⟨v, hv, ha⟩, h⟩
  | pow e k ih =>
    obtain ⟨hsg, hk, -, hs⟩ := hs
    obtain ⟨-, -, hs'⟩ := hs'
    obtain ⟨r₀, v, hv', a₀, hr, hr₀, -⟩ := hd
    exact NestOr.step (g := fun x => powI W.pp x k) (g' := fun x => powI V.pp x k) (ih hs hs' ⟨a₀, v, hv', hr⟩) fun x x' hx hxx =>
      (powI_nestOr hφ hv hn hW hsg hk ⟨a₀, hx ⟨v, hv', hr⟩, hr₀⟩ hxx).weak fun r ⟨v, hv, a, ha, h⟩ => ⟨a, hx ⟨v, hv, ha⟩, h⟩
  | bin o e₁ e₂ ih₁ ih₂ =>
    obtain ⟨-, hs₁, hs₂⟩ := hs
    obtain ⟨-, hs₁', hs₂'⟩ := hs'
    obtain ⟨r₀, v, hv', a₀, b₀, hr₁, hr₂, hr₀⟩ := hd
    exact NestOr.step₂ (g := fun x y => o.II W.pp x y) (g' := fun x y => o.II V.pp x y) (ih₁ hs₁ hs₁' ⟨a₀, v, hv', hr₁⟩)
      (ih₂ hs₂ hs₂' ⟨b₀, v, hv', hr₂⟩) fun x x' y y' hx hxx hy hyy =>
      (BinOp.II_nestOr hφ hv hV hn hW o ⟨a₀, hx ⟨v, hv', hr₁⟩, b₀, hy ⟨v, hv', hr₂⟩, r₀, hr₀⟩ hxx hyy).weak
        fun r ⟨v, hv, a, b, ha, hb, h⟩ => ⟨a, hx ⟨v, hv, ha⟩, b, hy ⟨v, hv, hb⟩, h⟩
  | binL o t e ih =>
    obtain ⟨-, hs⟩ := hs
    obtain ⟨-, hs'⟩ := hs'
    obtain ⟨r₀, v, hv', a₀, b₀, ht, hr, hr₀⟩ := hd
    exact NestOr.step (g := fun x => o.TI W.pp (φ t) x) (g' := fun x => o.TI V.pp t x) (ih hs hs' ⟨b₀, v, hv', hr⟩) fun x x' hx hxx =>
      (BinOp.TI_nestOr hφ hv hV hn hW o ((hφ t).symm.trans ht) ⟨b₀, hx ⟨v, hv', hr⟩, r₀, hr₀⟩ hxx).weak
        fun r ⟨v, hv, a, b, ht', hb, h⟩ => ⟨b, hx ⟨v, hv, hb⟩, by rwa [EReal.coe_eq_coe_iff.1 (Option.some.inj (ht.symm.trans ht'))]⟩
  | binR o e t ih =>
    obtain ⟨r₀, v, hv', a₀, b₀, hr, ht, hr₀⟩ := hd
    exact NestOr.step (g := fun x => o.IT W.pp x (φ t)) (g' := fun x => o.IT V.pp x t) (ih hs hs' ⟨a₀, v, hv', hr⟩) fun x x' hx hxx =>
      NestOr.weak (.inl (BinOp.IT_nest hφ hv hV hW o ((hφ t).symm.trans ht) ⟨a₀, hx ⟨v, hv', hr⟩, r₀, hr₀⟩ hxx))
        fun r ⟨v, hv, a, b, ha, ht', h⟩ => ⟨a, hx ⟨v, hv, ha⟩, by rwa [EReal.coe_eq_coe_iff.1 (Option.some.inj (ht.symm.trans ht'))]⟩
  | inter e₁ e₂ ih₁ ih₂ =>
    obtain ⟨hs₁, hs₂⟩ := hs
    obtain ⟨hs₁', hs₂'⟩ := hs'
    obtain ⟨r₀, v, hv', hr₁, hr₂⟩ := hd
    refine NestOr.step₂ (g := fun x y => lift (intersect W.pp.chk x y)) (g' := fun x y => lift (intersect V.pp.chk x y))
      (ih₁ hs₁ hs₁' ⟨r₀, v, hv', hr₁⟩) (ih₂ hs₂ hs₂' ⟨r₀, v, hv', hr₂⟩) fun x x' y y' hx hxx hy hyy => .inl ?_
    have h₀ : r₀ ∈ γ x' ∩ γ y' := ⟨hx ⟨v, hv', hr₁⟩, hy ⟨v, hv', hr₂⟩⟩
    obtain ⟨z, h1, h2⟩ := C23_intersect W ⟨r₀, h₀⟩
    obtain ⟨z', h1', h2'⟩ := C23_intersect V ⟨r₀, hxx h₀.1, hyy h₀.2⟩
    refine ⟨z, z', h1, h1', ?_, ?_⟩
    · rw [h2]; exact fun r ⟨v, hv, ha, hb⟩ => ⟨hx ⟨v, hv, ha⟩, hy ⟨v, hv, hb⟩⟩
    · rw [h2, h2']; exact inter_subset_inter hxx hyy
  | fn f e ih =>
    obtain ⟨hf, hs⟩ := hs
    obtain ⟨⟨hK, hf', -, h1⟩, hs'⟩ := hs'
    obtain ⟨r₀, v, hv', a₀, hr, hr₀, -⟩ := hd
    exact NestOr.step (g := fun x => f.I K' fuel' W.pp x) (g' := fun x => f.I K fuel V.pp x) (ih hs hs' ⟨a₀, v, hv', hr⟩) fun x x' hx hxx =>
      (Fn.I_nestOr hφ hv hV hn hW f h1 hf hf' hK ⟨a₀, hx ⟨v, hv', hr⟩, hr₀⟩ hxx).weak
        fun r ⟨v, hv, a, ha, hd, h⟩ => ⟨a, ⟨hx ⟨v, hv, ha⟩, hd⟩, h.symm⟩
end
end BI.Refine
