import Verif.Proofs.Expr
import Verif.Proofs.Instances
import Verif.Proofs.InstArith2
import Verif.Proofs.InstElem
/-!
# C10: no silent empty interval

`V.checks.forbidsEmpty = true`: the checking policy contains `checking_no_empty` (the default policy does). The operands
are intervals that contain a real number, the constants are finite.
-/

set_option linter.unusedSectionVars false

namespace BI
open Set

variable {T : Type} [Num T] [Val T] [NumLaws T] (V : Env T) {x y : Itv T} {t : T} {r : ℝ}

/-- Bounds that are numbers, in order. -/
def Ordered (z : Itv T) : Prop := ∃ l u, val z.lower = some l ∧ val z.upper = some u ∧ l ≤ u

theorem ordered_of {z : Itv T} (h : (γ z).Nonempty) : Ordered z := by
  obtain ⟨r, l, u, h1, h2, h3, h4⟩ := h
  exact ⟨l, u, h1, h2, h3.trans h4⟩

/-- The call delivers an enclosure of `S` that is a proper interval if `S` has a point, and throws otherwise. -/
def Env.Decides (V : Env T) (op : M V.ctl.W (Itv T)) (S : Set ℝ) : Prop :=
  (S.Nonempty → V.Returns op fun z => Ordered z ∧ S ⊆ γ z) ∧ (S = ∅ → V.Throws op .emptyCreated)

/-! ## Single operations -/

theorem emptyI_throws (hE : V.checks.forbidsEmpty = true) : emptyI V.C = (.error .emptyCreated : Res (Itv T)) := by
  rcases emptyI_spec (T := T) V.checks V.ndebug with ⟨-, h⟩ | ⟨h, -⟩
  · exact h
  · rw [hE] at h; cases h

theorem decides_of (hV : V.Directed) (hE : V.checks.forbidsEmpty = true) {op : M V.ctl.W (Itv T)} {q : Res (Itv T)} {S : Set ℝ}
    (hs : ∀ J, PSim (outer V.laws) J V.P V.B V.C → Sim (outer V.laws) op q)
    (h1 : S.Nonempty → Post True q fun z => S ⊆ γ z) (h2 : S = ∅ → q = emptyI V.C) : V.Decides op S := by
  refine ⟨fun h => V.run hV hs ((h1 h).mono fun z hz => ⟨ordered_of (h.mono hz), hz⟩), fun h => ?_⟩
  obtain ⟨J, hJ⟩ := V.sim hV.kindOk
  exact V.throws_of (hs J hJ) ((h2 h).trans (emptyI_throws V hE))

theorem BinOp.II_empty (o : BinOp) (hx : (γ x).Nonempty) (hy : (γ y).Nonempty)
    (h : {r | ∃ a ∈ γ x, ∃ b ∈ γ y, o.Rel a b r} = ∅) : o.II V.pp x y = emptyI V.C := by
  obtain ⟨a, ha⟩ := hx
  obtain ⟨b, hb⟩ := hy
  have hno : ∀ r, ∀ a ∈ γ x, ∀ b ∈ γ y, ¬ o.Rel a b r := fun r a ha b hb hr => by
    have : r ∈ {r | ∃ a ∈ γ x, ∃ b ∈ γ y, o.Rel a b r} := ⟨a, ha, b, hb, hr⟩
    rw [h] at this; exact this
  cases o with
  | div =>
    obtain ⟨_, _, ix⟩ := has_of_mem ha
    obtain ⟨_, _, iy⟩ := has_of_mem hb
    refine divII_zero V.chk ix iy ((zero_bounds iy).2 fun c hc => ?_)
    by_contra h0
    exact hno _ a ha c hc ⟨h0, rfl⟩
  | hull => exact absurd ⟨min_le_left a b, le_max_left a b⟩ (hno a a ha b hb)
  | add => exact absurd rfl (hno _ a ha b hb)
  | sub => exact absurd rfl (hno _ a ha b hb)
  | mul => exact absurd rfl (hno _ a ha b hb)
  | min => exact absurd rfl (hno _ a ha b hb)
  | max => exact absurd rfl (hno _ a ha b hb)

theorem BinOp.TI_empty (o : BinOp) (ht : val t = some (r : EReal)) (hy : (γ y).Nonempty)
    (h : {q | ∃ b ∈ γ y, o.Rel r b q} = ∅) : o.TI V.pp t y = emptyI V.C := by
  obtain ⟨b, hb⟩ := hy
  have hno : ∀ q, ∀ b ∈ γ y, ¬ o.Rel r b q := fun q b hb hr => by
    have : q ∈ {q | ∃ b ∈ γ y, o.Rel r b q} := ⟨b, hb, hr⟩
    rw [h] at this; exact this
  cases o with
  | div =>
    obtain ⟨_, _, iy⟩ := has_of_mem hb
    refine divTI_zero V.chk ht iy ((zero_bounds iy).2 fun c hc => ?_)
    by_contra h0
    exact hno _ c hc ⟨h0, rfl⟩
  | hull => exact absurd ⟨min_le_left r b, le_max_left r b⟩ (hno r b hb)
  | add => exact absurd rfl (hno _ b hb)
  | sub => exact absurd rfl (hno _ b hb)
  | mul => exact absurd rfl (hno _ b hb)
  | min => exact absurd rfl (hno _ b hb)
  | max => exact absurd rfl (hno _ b hb)

theorem BinOp.IT_empty (o : BinOp) (hx : (γ x).Nonempty) (ht : val t = some (r : EReal))
    (h : {q | ∃ a ∈ γ x, o.Rel a r q} = ∅) : o.IT V.pp x t = emptyI V.C := by
  obtain ⟨a, ha⟩ := hx
  have hno : ∀ q, ∀ a ∈ γ x, ¬ o.Rel a r q := fun q a ha hr => by
    have : q ∈ {q | ∃ a ∈ γ x, o.Rel a r q} := ⟨a, ha, hr⟩
    rw [h] at this; exact this
  cases o with
  | div =>
    obtain ⟨_, _, ix⟩ := has_of_mem ha
    have h0 : r = 0 := by
      by_contra h0
      exact hno _ a ha ⟨h0, rfl⟩
    subst h0
    exact divIT_zero V.chk ix ht
  | hull => exact absurd ⟨min_le_left a r, le_max_left a r⟩ (hno a a ha)
  | add => exact absurd rfl (hno _ a ha)
  | sub => exact absurd rfl (hno _ a ha)
  | mul => exact absurd rfl (hno _ a ha)
  | min => exact absurd rfl (hno _ a ha)
  | max => exact absurd rfl (hno _ a ha)

theorem UnOp.I_empty (o : UnOp) (hx : (γ x).Nonempty)
    (h : {r | ∃ a ∈ γ x, o.Rel a r} = ∅) : o.I V.pp x = emptyI V.C := by
  obtain ⟨a, ha⟩ := hx
  obtain ⟨_, _, ix⟩ := has_of_mem ha
  have hno : ∀ q, ∀ a ∈ γ x, ¬ o.Rel a q := fun q a ha hr => by
    have : q ∈ {r | ∃ a ∈ γ x, o.Rel a r} := ⟨a, ha, hr⟩
    rw [h] at this; exact this
  cases o with
  | pos => exact absurd rfl (hno _ a ha)
  | neg => exact absurd rfl (hno _ a ha)
  | abs => exact absurd rfl (hno _ a ha)
  | square => exact absurd rfl (hno _ a ha)
  | sqrt =>
    refine sqrtI_neg V.chk ix (neg_upper ix fun q hq => ?_)
    by_contra h0
    exact hno _ q hq ⟨le_of_not_gt h0, rfl⟩
  | inv =>
    have h1 : val (Num.lit 1 : T) = some ((1 : ℝ) : EReal) := by rw [val_one]; rfl
    refine (multInv_eq V.chk ix).trans (divTI_zero V.chk h1 ix ((zero_bounds ix).2 fun c hc => ?_))
    by_contra h0
    exact hno _ c hc ⟨h0, rfl⟩

theorem C10_binary (hV : V.Directed) (hE : V.checks.forbidsEmpty = true) (o : BinOp) (hi : o = .div → InfBase T)
    (hx : (γ x).Nonempty) (hy : (γ y).Nonempty) :
    V.Decides (o.II V.P x y) {r | ∃ a ∈ γ x, ∃ b ∈ γ y, o.Rel a b r} :=
  decides_of V hV hE (fun _ h => BinOp.II_sim h o x y)
    (fun ⟨r, a, ha, b, hb, hr⟩ => (BinOp.II_post hV o hi ⟨a, ha, b, hb, r, hr⟩).mono fun z hz q ⟨a, ha, b, hb, hr⟩ =>
      hz a ha b hb q hr)
    (BinOp.II_empty V o hx hy)

theorem C10_number_left (hV : V.Directed) (hE : V.checks.forbidsEmpty = true) (o : BinOp) (hi : o = .div → InfBase T)
    (ht : val t = some (r : EReal)) (hy : (γ y).Nonempty) :
    V.Decides (o.TI V.P t y) {q | ∃ b ∈ γ y, o.Rel r b q} :=
  decides_of V hV hE (fun _ h => BinOp.TI_sim h o t y)
    (fun ⟨r, b, hb, hr⟩ => (BinOp.TI_post hV o hi ht ⟨b, hb, r, hr⟩).mono fun z hz q ⟨b, hb, hr⟩ => hz b hb q hr)
    (BinOp.TI_empty V o ht hy)

theorem C10_number_right (hV : V.Directed) (hE : V.checks.forbidsEmpty = true) (o : BinOp)
    (hx : (γ x).Nonempty) (ht : val t = some (r : EReal)) :
    V.Decides (o.IT V.P x t) {q | ∃ a ∈ γ x, o.Rel a r q} :=
  decides_of V hV hE (fun _ h => BinOp.IT_sim h o x t)
    (fun ⟨r, a, ha, hr⟩ => (BinOp.IT_post hV o ht ⟨a, ha, r, hr⟩).mono fun z hz q ⟨a, ha, hr⟩ => hz a ha q hr)
    (BinOp.IT_empty V o hx ht)

theorem C10_unary (hV : V.Directed) (hE : V.checks.forbidsEmpty = true) (o : UnOp) (hi : o = .inv → InfBase T)
    (hS : o = .sqrt → V.SqrtOk LeB GeB) (hx : (γ x).Nonempty) :
    V.Decides (o.I V.P x) {r | ∃ a ∈ γ x, o.Rel a r} :=
  decides_of V hV hE (fun _ h => UnOp.I_sim h o x)
    (fun ⟨r, a, ha, hr⟩ => (UnOp.I_post hV o hi hS ⟨a, ha, r, hr⟩).mono fun z hz q ⟨a, ha, hr⟩ => hz a ha q hr)
    (UnOp.I_empty V o hx)

theorem pow_empty (hV : V.Signed) {k : ℤ} (hk : k ≠ -2147483648) (hx : (γ x).Nonempty)
    (h : {r | ∃ a ∈ γ x, (a ≠ 0 ∨ 0 < k) ∧ r = a ^ k} = ∅) : powI V.pp x k = emptyI V.C := by
  obtain ⟨_, _, ix⟩ := has_of_nonempty hx
  have hno : ∀ a ∈ γ x, ¬ (a ≠ 0 ∨ 0 < k) := fun a ha ho => by
    have : a ^ k ∈ {r | ∃ a ∈ γ x, (a ≠ 0 ∨ 0 < k) ∧ r = a ^ k} := ⟨a, ha, ho, rfl⟩
    rw [h] at this; exact this
  obtain ⟨a, ha⟩ := hx
  refine powI_zero_neg (hV.dir du_signed) V.chk ix hk ((zero_bounds ix).2 fun c hc => ?_) ?_
  · by_contra h0
    exact hno c hc (.inl h0)
  · by_contra h0
    exact hno a ha (.inr (by omega))

/-- `pow`; for the exponent zero the library treats `0^0` as undefined (see `C47_zero_zero`). -/
theorem C10_pow (hV : V.Signed) (hE : V.checks.forbidsEmpty = true) {k : ℤ} (hk : k ≠ -2147483648)
    (hi : k < 0 → InfBase T) (hx : (γ x).Nonempty) :
    V.Decides (powI V.P x k) {r | ∃ a ∈ γ x, (a ≠ 0 ∨ 0 < k) ∧ r = a ^ k} := by
  obtain ⟨_, _, ix⟩ := has_of_nonempty hx
  refine decides_of V hV.directed hE (fun _ h => powI_sim h x k) ?_ fun h => ?_
  · rintro ⟨r, a, ha, ho, hr⟩
    refine (powI_post (hV.dir du_signed) (hV.div du_signed) V.chk ix hk (fun h => V.infLaws (hi h)) fun h h' =>
      (ho.resolve_right (by omega)) ((zero_bounds ix).1 h' ha)).mono fun z hz q ⟨a, ha, ho, hr⟩ => ?_
    rw [hr]
    exact hz a ha fun hn => ho.resolve_right (by omega)
  · exact pow_empty V hV hk hx h

theorem intersect_empty (hx : (γ x).Nonempty) (hy : (γ y).Nonempty) (h : γ x ∩ γ y = ∅) :
    intersect V.C x y = emptyI V.C := by
  obtain ⟨a, b, ix⟩ := has_of_nonempty hx
  obtain ⟨c, d, iy⟩ := has_of_nonempty hy
  have hl := val_stdMax ix.lo iy.lo
  have hu := val_stdMin ix.up iy.up
  have hle := fun h' => (ix.inter_iff iy).2 h'
  unfold intersect
  rw [res_if_false' (ix.test2 V.chk iy)]
  dsimp only
  rw [le_eq hl hu]
  by_cases h' : max a c ≤ min b d
  · exact absurd (hle h') (by rw [h]; simp)
  · simp [h']

theorem C10_intersect (hE : V.checks.forbidsEmpty = true) (hx : (γ x).Nonempty) (hy : (γ y).Nonempty) :
    ((γ x ∩ γ y).Nonempty → ∃ z, intersect V.C x y = .ok z ∧ Ordered z ∧ γ z = γ x ∩ γ y) ∧
    (γ x ∩ γ y = ∅ → intersect V.C x y = .error .emptyCreated) := by
  refine ⟨fun h => ?_, fun h => (intersect_empty V hx hy h).trans (emptyI_throws V hE)⟩
  obtain ⟨z, hz, e⟩ := C23_intersect V h
  exact ⟨z, hz, ordered_of (e ▸ h), e⟩

/-! ## All computations -/

/-- The exceptions that may occur: the documented one and, if `B`, a failed assertion. -/
abbrev Stop (B : Prop) (e : Err) : Prop := e = .emptyCreated ∨ B ∧ e = .assertion

/-- A proper interval, or an exception. -/
abbrev Safe (B : Prop) (q : Res (Itv T)) : Prop := Either (fun z => (γ z).Nonempty) (Stop B) q

/-- All constants are finite, and `atanh` is not called: `atanh([-2, -1])` returns an interval without a real number
(`C10_atanh`). -/
def Expr.Finite : Expr T → Prop
  | .var _ => True
  | .num t => ∃ r : ℝ, val t = some (r : EReal)
  | .un _ e => e.Finite
  | .pow e _ => e.Finite
  | .bin _ e₁ e₂ => e₁.Finite ∧ e₂.Finite
  | .binL _ t e => (∃ r : ℝ, val t = some (r : EReal)) ∧ e.Finite
  | .binR _ e t => e.Finite ∧ ∃ r : ℝ, val t = some (r : EReal)
  | .inter e₁ e₂ => e₁.Finite ∧ e₂.Finite
  | .fn f e => f ≠ .atanh ∧ e.Finite

theorem safe_of {B : Prop} (hE : V.checks.forbidsEmpty = true) {q : Res (Itv T)} {S : Set ℝ}
    (h1 : S.Nonempty → Out B S q) (h2 : S = ∅ → q = emptyI V.C) : Safe B q := by
  rcases S.eq_empty_or_nonempty with h | h
  · exact .inr ⟨_, .inl rfl, (h2 h).trans (emptyI_throws V hE)⟩
  · exact (h1 h).imp (fun ⟨z, hz, hS⟩ => ⟨z, hz, h.mono hS⟩) fun ⟨e, he, hz⟩ => ⟨e, .inr he, hz⟩

section
variable {B : Prop} (hB : B → V.NoInf)
include hB

theorem Fn.I_safe {K : PiConst T} {inf : Prop} (f : Fn) (hV : V.Directed) (hE : V.checks.forbidsEmpty = true)
    (hi : inf → InfBase T ∨ B) (hf : V.ElemOk K inf f) (ha : f ≠ .atanh) (hx : (γ x).Nonempty) :
    ∃ q N, Safe B q ∧ ((f.uses == .cos) = false → N = 0) ∧ ∀ fuel ≥ N, f.I K fuel V.pp x = q := by
  rcases (γ x ∩ f.dom).eq_empty_or_nonempty with h | h
  · by_cases hs : f.simple = true
    · exact ⟨_, 0, .inr ⟨_, .inl rfl, (Fn.I_outside (K := K) (fuel := 0) V hs hx h fun h => absurd h ha).trans (emptyI_throws V hE)⟩,
        fun _ => rfl, fun fuel _ => by cases f <;> first | rfl | cases hs⟩
    · cases f with
      | tan =>
        obtain ⟨hK, hf, hu, ht⟩ := hf
        obtain ⟨hT, hI, hE, hP⟩ := ht rfl
        obtain ⟨a, b, ix⟩ := has_of_nonempty hx
        refine ⟨tanI K V.pp x, 0, ?_, fun _ => rfl, fun _ _ => rfl⟩
        rcases tan_cases hT hI hE du_weak hf hK.ok hP ix with h | h
        · rcases hi (hu rfl) with h' | h'
          · obtain ⟨w, hw, h1, h2⟩ := whole_ok (V.infLaws h')
            exact .inl ⟨w, h.trans hw, 0, _, _, h1, h2, bot_le, le_top⟩
          · exact .inr ⟨_, .inr ⟨h', rfl⟩, h.trans (NoInf.whole_eq (hB h'))⟩
        · obtain ⟨w, hw, hr⟩ := h.ok_of
          obtain ⟨r, hr'⟩ := hx
          exact .inl ⟨w, hw, _, (hr r hr').2⟩
      | sin => exact absurd h (by rw [show Fn.sin.dom = univ from rfl, inter_univ]; exact hx.ne_empty)
      | cos => exact absurd h (by rw [show Fn.cos.dom = univ from rfl, inter_univ]; exact hx.ne_empty)
      | _ => exact absurd rfl hs
  · obtain ⟨q, N, h1, h2, h3⟩ := Fn.I_out hB f hV hi hf h
    exact ⟨q, N, h1.imp (fun ⟨z, hz, hS⟩ => ⟨z, hz, (h.image _).mono hS⟩) fun ⟨e, he, hz⟩ => ⟨e, .inr he, hz⟩, h2, h3⟩

theorem Expr.eval_safe {K : PiConst T} {inf : Prop} (hV : V.Directed) (hE : V.checks.forbidsEmpty = true)
    (hi : inf → InfBase T ∨ B) (ρ : ℕ → Itv T) (hρ : ∀ i, (γ (ρ i)).Nonempty) (e : Expr T) (hs : e.Supported V K inf) (hf : e.Finite) :
    ∃ q N, Safe B q ∧ (e.nests = false → N = 0) ∧ Settles V (Stop B) (fun fuel P => e.eval K fuel P ρ) N q := by
  induction e with
  | var i => exact ⟨.ok (ρ i), 0, .inl ⟨ρ i, rfl, hρ i⟩, fun _ => rfl, fun _ _ _ _ _ h => .of_sim (Sim.pure _) fun e h => by cases h⟩
  | num t =>
    obtain ⟨r, hr⟩ := hf
    obtain ⟨z, hz, -, -, e⟩ := C36_num V hr
    refine ⟨.ok z, 0, .inl ⟨z, rfl, by change (γ z).Nonempty; rw [e]; exact ⟨r, rfl⟩⟩, fun _ => rfl, fun _ _ _ _ _ h =>
      .of_sim ?_ fun e h => by cases h⟩
    unfold Expr.eval; dsimp only; rw [h.chk, ← hz]; exact Sim.lift _
  | un o e ih =>
    obtain ⟨ho, hS, hs⟩ := hs
    obtain ⟨q, N, h1, h2, h3⟩ := ih hs hf
    exact h3.step (g := fun P x => o.I P x) h1 h2
      (fun x hx => safe_of V hE (S := {r | ∃ a ∈ γ x, o.Rel a r})
        (fun ⟨r, a, ha, hr⟩ => UnOp.I_out hB hV o (fun h => hi (ho h)) hS ⟨a, ha, r, hr⟩) (UnOp.I_empty V o hx))
      fun x _ _ _ h => UnOp.I_sim h o x
  | pow e k ih =>
    obtain ⟨hG, hk, ho, hs⟩ := hs
    obtain ⟨q, N, h1, h2, h3⟩ := ih hs hf
    exact h3.step (g := fun P x => powI P x k) h1 h2
      (fun x hx => safe_of V hE (S := {r | ∃ a ∈ γ x, (a ≠ 0 ∨ 0 < k) ∧ r = a ^ k})
        (fun ⟨r, a, ha, ha', hr⟩ => powI_out hB hG (fun h => hi (ho h)) hk ⟨a, ha, ha'⟩) fun h => pow_empty V hG hk hx h)
      fun x _ _ _ h => powI_sim h x k
  | bin o e₁ e₂ ih₁ ih₂ =>
    obtain ⟨ho, hs₁, hs₂⟩ := hs
    obtain ⟨q, N, h1, h2, h3⟩ := ih₁ hs₁ hf.1
    obtain ⟨q', N', k1, k2, k3⟩ := ih₂ hs₂ hf.2
    obtain ⟨q'', N'', m1, m2, m3⟩ := h3.bind₂ (g := fun P x y => o.II P x y) (A' := fun z => (γ z).Nonempty) h1 h2 k3 k1 k2
      (fun x y hx hy => safe_of V hE (S := {r | ∃ a ∈ γ x, ∃ b ∈ γ y, o.Rel a b r})
        (fun ⟨r, a, ha, b, hb, hr⟩ => BinOp.II_out hB hV o (fun h => hi (ho h)) ⟨a, ha, b, hb, r, hr⟩)
        (BinOp.II_empty V o hx hy)) fun x y _ _ _ h => BinOp.II_sim h o x y
    exact ⟨q'', N'', m1, fun h => by
      have := (Bool.or_eq_false_iff.1 (show (e₁.nests || e₂.nests) = false from h)); exact m2 this.1 this.2, m3⟩
  | binL o t e ih =>
    obtain ⟨ho, hs⟩ := hs
    obtain ⟨⟨r, ht⟩, hf⟩ := hf
    obtain ⟨q, N, h1, h2, h3⟩ := ih hs hf
    exact h3.step (g := fun P x => o.TI P t x) h1 h2
      (fun y hy => safe_of V hE (S := {q | ∃ b ∈ γ y, o.Rel r b q})
        (fun ⟨r, b, hb, hr⟩ => BinOp.TI_out hB hV o (fun h => hi (ho h)) ht ⟨b, hb, r, hr⟩) (BinOp.TI_empty V o ht hy))
      fun x _ _ _ h => BinOp.TI_sim h o t x
  | binR o e t ih =>
    obtain ⟨hf, ⟨r, ht⟩⟩ := hf
    obtain ⟨q, N, h1, h2, h3⟩ := ih hs hf
    exact h3.step (g := fun P x => o.IT P x t) h1 h2
      (fun x hx => safe_of V hE (S := {q | ∃ a ∈ γ x, o.Rel a r q})
        (fun ⟨r, a, ha, hr⟩ => BinOp.IT_out hV o ht ⟨a, ha, r, hr⟩) (BinOp.IT_empty V o hx ht))
      fun x _ _ _ h => BinOp.IT_sim h o x t
  | inter e₁ e₂ ih₁ ih₂ =>
    obtain ⟨q, N, h1, h2, h3⟩ := ih₁ hs.1 hf.1
    obtain ⟨q', N', k1, k2, k3⟩ := ih₂ hs.2 hf.2
    obtain ⟨q'', N'', m1, m2, m3⟩ := h3.bind₂ (g := fun P x y => lift (intersect P.chk x y)) (A' := fun z => (γ z).Nonempty)
      h1 h2 k3 k1 k2
      (fun x y hx hy => safe_of V hE (S := γ x ∩ γ y)
        (fun h => by
          obtain ⟨z, hz, e⟩ := C23_intersect V h
          exact .inl ⟨z, hz, e.ge⟩)
        (intersect_empty V hx hy))
      fun x y _ _ _ h => by rw [h.chk, pure_chk]; exact Sim.lift _
    exact ⟨q'', N'', m1, fun h => by
      have := (Bool.or_eq_false_iff.1 (show (e₁.nests || e₂.nests) = false from h)); exact m2 this.1 this.2, m3⟩
  | fn f e ih =>
    obtain ⟨hf', hs⟩ := hs
    obtain ⟨q, N, h1, h2, h3⟩ := ih hs hf.2
    obtain ⟨q', N', k1, k2, k3⟩ := h3.bind (g := fun fuel P x => f.I K fuel P x) (A' := fun z => (γ z).Nonempty)
      (l₂ := (f.uses == .cos) = false) h1 h2 fun x hx => by
        obtain ⟨q, N, h1, h2, h3⟩ := Fn.I_safe V hB f hV hE hi hf' hf.1 hx
        refine ⟨q, N, h1, h2, fun fuel hn _ _ _ h => .of_sim (h3 fuel hn ▸ Fn.I_sim V h f x) ?_⟩
        exact h1.elim (fun ⟨z, hz, _⟩ e h => by cases hz.symm.trans h) fun ⟨e', he, hz⟩ e h => by cases hz.symm.trans h; exact he
    exact ⟨q', N', k1, fun h => by
      have := (Bool.or_eq_false_iff.1 (show (f.uses == .cos || e.nests) = false from h)); exact k2 this.2 this.1, k3⟩
end

/-- Any formula, however it goes: from proper operands an evaluation ends with a proper interval or with the exception
for the creation of an empty interval, in every mode and whatever the order of evaluation, and restores the mode. As in C14,
a limit on the nested calls of `sin` and `cos` must be large enough.
Missing from the full claim: operands such as `[+∞, +∞]`, `widen` by a negative number, `fmod` by zero and `atanh`, for which
it is false (witnesses below); operations with unbounded results in base types without infinities, for which see
`C10_debug_partial`. -/
theorem C10_expression_partial (hV : V.Directed) (hE : V.checks.forbidsEmpty = true) (K : PiConst T) (ρ : ℕ → Itv T)
    (hρ : ∀ i, (γ (ρ i)).Nonempty) (e : Expr T) (hs : e.Supported V K (InfBase T)) (hf : e.Finite) :
    ∃ N, (e.nests = false → N = 0) ∧
      ((∃ z, Ordered z ∧ (γ z).Nonempty ∧ ∀ fuel ≥ N, V.Returns (e.eval K fuel V.P ρ) (· = z)) ∨
        ∀ fuel ≥ N, V.Throws (e.eval K fuel V.P ρ) .emptyCreated) := by
  obtain ⟨J, hJ⟩ := V.sim hV.kindOk
  obtain ⟨q, N, h1, h2, h3⟩ := e.eval_safe V (B := False) False.elim hV hE .inl ρ hρ hs hf
  refine ⟨N, h2, ?_⟩
  rcases h1 with ⟨z, rfl, hne⟩ | ⟨e, -, rfl⟩
  · exact .inl ⟨z, ordered_of hne, hne, fun fuel hf => V.returns_of (h3 fuel hf hJ).sim (Post.of_ok ⟨z, rfl, rfl⟩)⟩
  · refine .inr fun fuel hf s hs => ?_
    obtain ⟨k1, -, k2⟩ := h3 fuel hf hJ s hs
    obtain ⟨e', rfl | ⟨⟨⟩, -⟩, k2⟩ := k2 e rfl
    exact ⟨k2, k1.symm⟩

/-- Base types without infinities in a debug build: a proper interval, the exception or a failed assertion; which of the
two may depend on the order of evaluation, whether there is a result does not. Missing: as above, and release builds, for which the
claim is false (`C57_release`). -/
theorem C10_debug_partial (hV : V.Directed) (hn : V.NoInf) (hE : V.checks.forbidsEmpty = true) (K : PiConst T) (ρ : ℕ → Itv T)
    (hρ : ∀ i, (γ (ρ i)).Nonempty) (e : Expr T) (hs : e.Supported V K True) (hf : e.Finite) :
    ∃ N, (e.nests = false → N = 0) ∧
      ((∃ z, Ordered z ∧ (γ z).Nonempty ∧ ∀ fuel ≥ N, V.Returns (e.eval K fuel V.P ρ) (· = z)) ∨
        ∀ fuel ≥ N, ∀ s : V.State, V.Valid s → (e.eval K fuel V.P ρ s).2.cw = s.cw ∧
          ((e.eval K fuel V.P ρ s).1 = .error .emptyCreated ∨ (e.eval K fuel V.P ρ s).1 = .error .assertion)) := by
  obtain ⟨J, hJ⟩ := V.sim hV.kindOk
  obtain ⟨q, N, h1, h2, h3⟩ := e.eval_safe V (B := True) (fun _ => hn) hV hE (fun _ => .inr trivial) ρ hρ hs hf
  refine ⟨N, h2, ?_⟩
  rcases h1 with ⟨z, rfl, hne⟩ | ⟨e, -, rfl⟩
  · exact .inl ⟨z, ordered_of hne, hne, fun fuel hf => V.returns_of (h3 fuel hf hJ).sim (Post.of_ok ⟨z, rfl, rfl⟩)⟩
  · refine .inr fun fuel hf s hs => ?_
    obtain ⟨k1, -, k2⟩ := h3 fuel hf hJ s hs
    obtain ⟨e', rfl | ⟨-, rfl⟩, k2⟩ := k2 e rfl
    · exact ⟨k1.symm, .inl k2⟩
    · exact ⟨k1.symm, .inr k2⟩

/-- The rational numbers in a debug build, `1/[0,1] + 1/[0,0]`: a failed assertion or the exception, whichever operand is
evaluated first. -/
theorem C10_debug_order (K : PiConst ℚ) (fuel : ℕ) :
    let e : Expr ℚ := .bin .add (.un .inv (.var 0)) (.un .inv (.var 1))
    let r : Bool → Res (Itv ℚ) := fun b => (e.eval K fuel ratEnv.P (fun i => if i = 0 then litI 0 1 else litI 0 0) ⟨(⟨.near, ()⟩ : FEnv Unit), fun _ => b⟩).1
    r true = .error .assertion ∧ r false = .error .emptyCreated := by
  exact ⟨rfl, rfl⟩

/-! ## Where the invariant is lost

Intervals that contain no real number can be constructed under the default policies: `interval<double>(inf, inf)`. Three
operations deliver something else than a proper interval silently. -/

/-- The state used by the witnesses: to nearest, left operand first. -/
abbrev dblNear : dbl.State := ⟨(⟨.near, ()⟩ : FEnv Unit), fun _ => true⟩

theorem C10_infinite_point :
    (ctorTT dbl.C (.inf false) (.inf false) : Res (Itv (Fl .double))) = .ok ⟨.inf false, .inf false⟩ ∧
    (subII dbl.P ⟨.inf false, .inf false⟩ ⟨.inf false, .inf false⟩ dblNear).1 = .ok ⟨.nan, .nan⟩ ∧
    ¬ Ordered (⟨.nan, .nan⟩ : Itv (Fl .double)) := by
  refine ⟨by decide +kernel, by decide +kernel, ?_⟩
  rintro ⟨l, u, h, -⟩; cases h

/-- `widen` with a negative number: bounds in the wrong order. -/
theorem C10_widen_negative :
    (widen dbl.P (litI 1 2) (Num.lit (-2)) dblNear).1 = .ok (litI 3 0) ∧ ¬ Ordered (litI 3 0 : Itv (Fl .double)) := by
  refine ⟨by decide +kernel, ?_⟩
  rintro ⟨l, u, h1, h2, h3⟩
  rw [show (litI 3 0 : Itv (Fl .double)).lower = Num.lit 3 from rfl, NumLaws.lit 3 (by decide)] at h1
  rw [show (litI 3 0 : Itv (Fl .double)).upper = Num.lit 0 from rfl, NumLaws.lit 0 (by decide)] at h2
  cases h1; cases h2
  rw [EReal.coe_le_coe_iff] at h3
  norm_num at h3

/-- `fmod` by the interval zero: NaN bounds. -/
theorem C10_fmod_zero : (fmodII dbl.P (litI 1 2) (litI 0 0) dblNear).1 = .ok ⟨.nan, .nan⟩ := by
  decide +kernel

/-- `atanh([-2, -1])`, with a library for which `atanh(-1)` is minus infinity: no exception, and no real number in the result. -/
theorem C10_atanh (hV : V.Directed) (hi : InfBase T) (hk : V.kind = .std) {c : T}
    (hc : V.lib .atanh .up (Num.lit (-1)) = some c) (hv : val c = some ⊥) :
    V.Returns (atanhI V.P (litI (-2) (-1))) fun z => γ z = ∅ := fun s h => by
  obtain ⟨z, h1, h2, -, h3⟩ := C19_atanh_pole V hV hi hk hc hv s h
  exact ⟨z, h1, h2, h3⟩

/-! ## The hypotheses can be met -/

example := C10_binary dbl dbl_directed rfl .div (fun _ => fl_inf) (x := litI 1 2) (y := litI 0 0) ne_lit ne_lit
example := C10_number_left dbl dbl_directed rfl .hull (fun h => by cases h) (t := Num.lit 1) (r := ((1 : ℤ) : ℝ))
  (NumLaws.lit 1 (by decide)) (y := litI 2 3) ne_lit
example := C10_number_right ratEnv rat_tight.directed rfl .div (x := litI 2 3) (t := Num.lit 0) (r := ((0 : ℤ) : ℝ)) ne_lit
  (NumLaws.lit 0 (by decide))
example := C10_unary dbl dbl_directed rfl .sqrt (fun h => by cases h) (fun _ => dbl_sqrt.mono (fun h => h.2.1) fun h => h.2.1)
  (x := litI (-2) (-1)) ne_lit
example := C10_pow dbl dbl_tight.signed rfl (k := -3) (by decide) (fun _ => fl_inf) (x := litI 0 0) ne_lit
example := C10_intersect dbl rfl (x := litI 0 1) (y := litI 2 3) ne_lit ne_lit
example := C10_expression_partial dbl dbl_directed rfl piGeneric (fun _ => litI (-2) 3) (fun _ => ne_lit)
  (.bin .div (.var 0) (.bin .sub (.var 1) (.var 1))) ⟨fun _ => fl_inf, trivial, (fun h => by cases h), trivial, trivial⟩
  ⟨trivial, trivial, trivial⟩
/-- IEEE 754: `atanh(-1)` is minus infinity. -/
example := let V : Env (Fl .double) := { dbl with kind := .std, lib := fun _ _ _ => some (.inf true) }
  C10_atanh V (V.fl_tight (by simp [V])).directed fl_inf rfl (c := .inf true) rfl rfl
/-- `1 / (x - x)` over the rational numbers, where `x - x` contains zero. -/
example := C10_debug_partial ratEnv rat_tight.directed ⟨rfl, rfl⟩ rfl piGeneric (fun _ => litI (-2) 3) (fun _ => ne_lit)
  (.un .inv (.bin .sub (.var 0) (.var 0))) ⟨fun _ => trivial, (fun h => by cases h), (fun h => by cases h), trivial, trivial⟩
  ⟨trivial, trivial⟩
/-- `log(cos(x))` -/
example := C10_expression_partial dblStd dblStd_tight.directed rfl (piDouble .near) (fun _ => litI (-2) 3) (fun _ => ne_lit)
  (.fn .log (.fn .cos (.var 0)))
  ⟨⟨(C21_double .near).brackets, (dblStd_fn .log).directed, fun _ => fl_inf, fun h => by cases h⟩,
    ⟨(C21_double .near).brackets, (dblStd_fn .cos).directed, (fun h => by cases h),
      fun _ => ⟨dblStd_tight, dblStd_int, fl_ieee, (C21_double .near).pos⟩⟩, trivial⟩
  ⟨by simp, by simp, trivial⟩

end BI
