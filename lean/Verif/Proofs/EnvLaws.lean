import Verif.Proofs.EnclDiv
import Verif.Proofs.PolSim
import Verif.Proofs.SimFns
/-! # From the assumptions on the base type to the laws of the rounding policies -/

set_option linter.unusedSectionVars false

namespace BI
open Set

/-- General properties of a notion of lower and upper approximation. -/
structure DU (T : Type) [Num T] [Val T] (D U : EReal → EReal → Prop) : Prop where
  D_le : ∀ {z e}, D z e → z ≤ e
  U_ge : ∀ {z e}, U z e → e ≤ z
  D_min : ∀ {z e z' e'}, D z e → D z' e' → D (min z z') (min e e')
  U_max : ∀ {z e z' e'}, U z e → U z' e' → U (max z z') (max e e')
  D_exact : ∀ (a : T) e, val a = some e → D e e
  U_exact : ∀ (a : T) e, val a = some e → U e e
  dual : ∀ {z e}, U z e → (∀ a : T, Num.neg a ≠ none) → D (-z) (-e)

section
variable {T : Type} [Num T] [Val T]

theorem IsRoundDown.min {z e z' e' : EReal} (h : IsRoundDown T z e) (h' : IsRoundDown T z' e') :
    IsRoundDown T (Min.min z z') (Min.min e e') := by
  refine ⟨?_, min_le_min h.2.1 h'.2.1, fun w hw hwe => le_min (h.2.2 w hw (hwe.trans (min_le_left _ _)))
    (h'.2.2 w hw (hwe.trans (min_le_right _ _)))⟩
  rcases min_choice z z' with hc | hc <;> rw [hc]
  exacts [h.1, h'.1]

theorem IsRoundUp.max {z e z' e' : EReal} (h : IsRoundUp T z e) (h' : IsRoundUp T z' e') :
    IsRoundUp T (Max.max z z') (Max.max e e') := by
  refine ⟨?_, max_le_max h.2.1 h'.2.1, fun w hw hwe => max_le (h.2.2 w hw ((le_max_left _ _).trans hwe))
    (h'.2.2 w hw ((le_max_right _ _).trans hwe))⟩
  rcases max_choice z z' with hc | hc <;> rw [hc]
  exacts [h.1, h'.1]

theorem IsRoundDown.refl {a : T} {e : EReal} (h : val a = some e) : IsRoundDown T e e :=
  ⟨⟨a, h⟩, le_rfl, fun _ _ h => h⟩

theorem IsRoundUp.refl {a : T} {e : EReal} (h : val a = some e) : IsRoundUp T e e :=
  ⟨⟨a, h⟩, le_rfl, fun _ _ h => h⟩

variable [NumLaws T]

theorem representable_neg {z : EReal} (hn : ∀ a : T, Num.neg a ≠ none) (h : Representable T z) :
    Representable T (-z) := by
  obtain ⟨a, ha⟩ := h
  obtain ⟨b, hb⟩ := Option.ne_none_iff_exists'.1 (hn a)
  exact ⟨b, by rw [NumLaws.neg a b hb, ha]; rfl⟩

theorem du_weak : DU T LeB GeB where
  D_le h := h
  U_ge h := h
  D_min h h' := min_le_min h h'
  U_max h h' := max_le_max h h'
  D_exact _ _ _ := le_refl _
  U_exact _ _ _ := le_refl _
  dual h _ := EReal.neg_le_neg_iff.2 h

theorem du_tight : DU T (IsRoundDown T) (IsRoundUp T) where
  D_le h := h.2.1
  U_ge h := h.2.1
  D_min h h' := h.min h'
  U_max h h' := h.max h'
  D_exact _ _ h := IsRoundDown.refl h
  U_exact _ _ h := IsRoundUp.refl h
  dual := by
    intro z e h hn
    refine ⟨representable_neg hn h.1, EReal.neg_le_neg_iff.2 h.2.1, fun w hw hwe => ?_⟩
    have := h.2.2 (-w) (representable_neg hn hw) (by rw [EReal.le_neg]; exact hwe)
    rw [EReal.le_neg]; exact this

variable {D U : EReal → EReal → Prop}

theorem approx_down {op : RMode → Option T} {e : EReal} (h : Approx T D U op e) :
    Post True (ofOpt (op .down)) fun c => ∃ z, val c = some z ∧ D z e := by
  obtain ⟨c, z, h1, h2, h3, _⟩ := h .down
  rw [h1]; exact ⟨z, h2, h3 rfl⟩

theorem approx_up {op : RMode → Option T} {e : EReal} (h : Approx T D U op e) :
    Post True (ofOpt (op .up)) fun c => ∃ z, val c = some z ∧ U z e := by
  obtain ⟨c, z, h1, h2, _, h3⟩ := h .up
  rw [h1]; exact ⟨z, h2, h3 rfl⟩

theorem approx_neg (hDU : DU T D U) (hn : ∀ a : T, Num.neg a ≠ none) {op : RMode → Option T} {e e' : EReal}
    (h : Approx T D U op e) (he : e' = -e) :
    Post True (negRes (op .up)) fun c => ∃ z, val c = some z ∧ D z e' := by
  obtain ⟨c, z, h1, h2, _, h3⟩ := h .up
  obtain ⟨b, hb⟩ := Option.ne_none_iff_exists'.1 (hn c)
  have : negRes (op .up) = .ok b := by rw [h1]; change ofOpt (Num.neg c) = _; rw [hb]; rfl
  rw [this, he]
  exact ⟨-z, by rw [NumLaws.neg c b hb, h2]; rfl, hDU.dual (h3 rfl) hn⟩

theorem exact_post {op : RMode → Option T} {e : EReal} {R : EReal → EReal → Prop}
    (hR : ∀ (a : T) e, val a = some e → R e e)
    (h : ∃ c, (∀ r, op r = some c) ∧ val c = some e) :
    Post True (ofOpt (op .near)) fun c => ∃ z, val c = some z ∧ R z e := by
  obtain ⟨c, h1, h2⟩ := h
  rw [h1]
  exact ⟨e, h2, hR _ _ h2⟩

theorem subOk_neg {x y : EReal} (h : AddOk x y) : SubOk (-x) y := by
  obtain ⟨h1, h2⟩ := h
  refine ⟨?_, ?_⟩
  · rcases h2 with h | h
    · exact .inl (by simpa using h)
    · exact .inr h
  · rcases h1 with h | h
    · exact .inl (by simpa using h)
    · exact .inr h

theorem subOk_symm {x y : EReal} (h : SubOk x y) : SubOk y x := ⟨h.1.symm, h.2.symm⟩

theorem addOk_real_neg {x y : EReal} (h : AddOk x y) : -(-x - y) = x + y := by
  rw [EReal.neg_sub, neg_neg]
  · rcases h.1 with h | h
    · exact .inl (by simpa using h)
    · exact .inr h
  · rcases h.2 with h | h
    · exact .inl (by simpa using h)
    · exact .inr h

theorem subOk_flip {x y : EReal} (h : SubOk x y) : x - y = -(y - x) := by
  rw [EReal.neg_sub, sub_eq_add_neg, add_comm]
  · rcases h.2 with h | h
    · exact .inr h
    · exact .inl h
  · rcases h.1 with h | h
    · exact .inr h
    · exact .inl h

theorem mulOk_neg {x y : EReal} (h : MulOk x y) : MulOk x (-y) := by
  unfold MulOk at *
  simpa [and_comm] using h

theorem divOk_neg {x y : EReal} (h : DivOk x y) : DivOk x (-y) := by
  unfold DivOk at *
  simpa [and_comm] using h

theorem bind_neg {op : T → Option T} {x : T} {nx : T} (h : Num.neg x = some nx) :
    ((Num.neg x).bind op) = op nx := by rw [h]; rfl

theorem dirLaws_of (hDU : DU T D U) (k : RKind) (lib : Lib T)
    (h : (k ≠ .exact ∧ BaseLaws T D U) ∨ (k = .exact ∧ ExactBase T ∧ ModeFree T lib)) :
    DirLaws True D U (pureArith k lib) ∧ DivLaws True D U (pureArith k lib) ∧ KindOk T lib k := by
  rcases h with ⟨hk, hB⟩ | ⟨rfl, hE, hm⟩
  · refine ⟨?_, ?_, fun h => absurd h hk⟩
    · cases k with
      | exact => exact absurd rfl hk
      | std => exact {
          D_le := hDU.D_le, U_ge := hDU.U_ge, D_min := hDU.D_min, U_max := hDU.U_max, D_exact := hDU.D_exact
          U_exact := hDU.U_exact
          neg := fun _ => hB.neg
          addDown := fun a b x y ha hb ok => approx_down (hB.add a b x y ha hb ok)
          addUp := fun a b x y ha hb ok => approx_up (hB.add a b x y ha hb ok)
          subDown := fun a b x y ha hb ok => approx_down (hB.sub a b x y ha hb ok)
          subUp := fun a b x y ha hb ok => approx_up (hB.sub a b x y ha hb ok)
          mulDown := fun a b x y ha hb ok => approx_down (hB.mul a b x y ha hb ok)
          mulUp := fun a b x y ha hb ok => approx_up (hB.mul a b x y ha hb ok) }
      | opp => exact {
          D_le := hDU.D_le, U_ge := hDU.U_ge, D_min := hDU.D_min, U_max := hDU.U_max, D_exact := hDU.D_exact
          U_exact := hDU.U_exact
          neg := fun _ => hB.neg
          addDown := fun a b x y ha hb ok => by
            obtain ⟨na, hna⟩ := Option.ne_none_iff_exists'.1 (hB.neg a)
            change Post True (negRes ((Num.neg a).bind fun nx => Num.sub .up nx b)) _
            rw [bind_neg hna]
            exact approx_neg hDU hB.neg (hB.sub na b (-x) y (by rw [NumLaws.neg a na hna, ha]; rfl) hb (subOk_neg ok))
              (addOk_real_neg ok).symm
          addUp := fun a b x y ha hb ok => approx_up (hB.add a b x y ha hb ok)
          subDown := fun a b x y ha hb ok =>
            approx_neg hDU hB.neg (hB.sub b a y x hb ha (subOk_symm ok)) (subOk_flip ok)
          subUp := fun a b x y ha hb ok => approx_up (hB.sub a b x y ha hb ok)
          mulDown := fun a b x y ha hb ok => by
            obtain ⟨nb, hnb⟩ := Option.ne_none_iff_exists'.1 (hB.neg b)
            change Post True (negRes ((Num.neg b).bind fun nx => Num.mul .up a nx)) _
            rw [bind_neg hnb]
            exact approx_neg hDU hB.neg (hB.mul a nb x (-y) ha (by rw [NumLaws.neg b nb hnb, hb]; rfl) (mulOk_neg ok))
              (by rw [mul_neg, neg_neg])
          mulUp := fun a b x y ha hb ok => approx_up (hB.mul a b x y ha hb ok) }
    · cases k with
      | exact => exact absurd rfl hk
      | std => exact {
          divDown := fun a b x y ha hb ok => approx_down (hB.div a b x y ha hb ok)
          divUp := fun a b x y ha hb ok => approx_up (hB.div a b x y ha hb ok) }
      | opp => exact {
          divDown := fun a b x y ha hb ok => by
            obtain ⟨nb, hnb⟩ := Option.ne_none_iff_exists'.1 (hB.neg b)
            change Post True (negRes ((Num.neg b).bind fun nx => Num.div .up a nx)) _
            rw [bind_neg hnb]
            exact approx_neg hDU hB.neg (hB.div a nb x (-y) ha (by rw [NumLaws.neg b nb hnb, hb]; rfl) (divOk_neg ok))
              (by rw [div_eq_mul_inv, div_eq_mul_inv, EReal.inv_neg, mul_neg, neg_neg])
          divUp := fun a b x y ha hb ok => approx_up (hB.div a b x y ha hb ok) }
  · exact ⟨{
      D_le := hDU.D_le, U_ge := hDU.U_ge, D_min := hDU.D_min, U_max := hDU.U_max, D_exact := hDU.D_exact
      U_exact := hDU.U_exact
      neg := fun _ => hE.neg
      addDown := fun a b x y ha hb ok => exact_post hDU.D_exact (hE.add a b x y ha hb ok)
      addUp := fun a b x y ha hb ok => exact_post hDU.U_exact (hE.add a b x y ha hb ok)
      subDown := fun a b x y ha hb ok => exact_post hDU.D_exact (hE.sub a b x y ha hb ok)
      subUp := fun a b x y ha hb ok => exact_post hDU.U_exact (hE.sub a b x y ha hb ok)
      mulDown := fun a b x y ha hb ok => exact_post hDU.D_exact (hE.mul a b x y ha hb ok)
      mulUp := fun a b x y ha hb ok => exact_post hDU.U_exact (hE.mul a b x y ha hb ok) },
    { divDown := fun a b x y ha hb ok => exact_post hDU.D_exact (hE.div a b x y ha hb ok)
      divUp := fun a b x y ha hb ok => exact_post hDU.U_exact (hE.div a b x y ha hb ok) }, fun _ => hm⟩

/-! ## Running -/

/-- The mode-free arithmetic of a configuration. -/
abbrev Env.B (V : Env T) : Arith Res T := pureArith V.kind V.lib

/-- The mode-free policies of a configuration. -/
abbrev Env.pp (V : Env T) : Policies Res T := purePolicies V.B V.C

theorem Env.sim (V : Env T) (hk : KindOk T V.lib V.kind) :
    ∃ J, PSim (outer V.laws) J V.P V.B V.C := libPolicies_sim V.kind V.lib V.C hk

theorem Env.returns_of (V : Env T) {α : Type} {op : M V.ctl.W α} {r : Res α} {Q : α → Prop}
    (h : Sim (outer V.laws) op r) (hp : Post True r Q) : V.Returns op Q := by
  intro s hs
  obtain ⟨z, hz, hq⟩ := hp.total
  obtain ⟨h1, h2, _⟩ := h s hs
  exact ⟨z, by rw [h1, hz], h2.symm, hq⟩

theorem Env.throws_of (V : Env T) {α : Type} {op : M V.ctl.W α} {r : Res α} {e : Err}
    (h : Sim (outer V.laws) op r) (hp : r = .error e) : V.Throws op e := by
  intro s hs
  obtain ⟨h1, h2, _⟩ := h s hs
  exact ⟨by rw [h1, hp], h2.symm⟩

theorem Env.Returns.mono {V : Env T} {α : Type} {op : M V.ctl.W α} {Q R : α → Prop} (h : V.Returns op Q)
    (hQ : ∀ z, Q z → R z) : V.Returns op R := by
  intro s hs
  obtain ⟨z, h1, h2, h3⟩ := h s hs
  exact ⟨z, h1, h2, hQ z h3⟩

theorem Env.Returns.bind {V : Env T} {α β : Type} {op : M V.ctl.W α} {f : α → M V.ctl.W β} {Q : α → Prop} {R : β → Prop}
    (h : V.Returns op Q) (hf : ∀ a, Q a → V.Returns (f a) R) : V.Returns (op >>= f) R := by
  intro s hs
  obtain ⟨a, h1, h2, h3⟩ := h s hs
  have hb : (op >>= f) s = f a (op s).2 := by
    change M.bind op f s = _
    unfold M.bind
    rcases ho : op s with ⟨o, s'⟩
    rw [ho] at h1
    cases h1; rfl
  rw [hb]
  have hv : V.Valid (op s).2 := by
    unfold Env.Valid at hs ⊢
    rw [h2]; exact hs
  obtain ⟨z, k1, k2, k3⟩ := hf a h3 _ hv
  exact ⟨z, k1, k2.trans h2, k3⟩

theorem Env.Returns.pure {V : Env T} {α : Type} {a : α} {Q : α → Prop} (h : Q a) :
    V.Returns (Pure.pure a : M V.ctl.W α) Q := fun _ _ => ⟨a, rfl, rfl, h⟩

theorem Env.Ok.dir {V : Env T} (hDU : DU T D U) (h : V.Ok D U) : DirLaws True D U V.B :=
  (dirLaws_of hDU V.kind V.lib h).1
theorem Env.Ok.div {V : Env T} (hDU : DU T D U) (h : V.Ok D U) : DivLaws True D U V.B :=
  (dirLaws_of hDU V.kind V.lib h).2.1
theorem Env.Ok.kindOk {V : Env T} (h : V.Ok D U) : KindOk T V.lib V.kind := by
  rcases h with ⟨hk, _⟩ | ⟨_, _, hm⟩
  · exact fun h => absurd h hk
  · exact fun _ => hm

theorem Env.chk (V : Env T) : ChkLaws V.C := chkSpec_laws V.checks V.ndebug

theorem Env.infLaws (V : Env T) (h : InfBase T) : InfLaws V.C := chkSpec_inf V.checks V.ndebug h.1 h.2

/-- Correct rounding is directed rounding. -/
theorem Env.Tight.directed {V : Env T} (h : V.Tight) : V.Directed := by
  rcases h with ⟨hk, hB⟩ | h
  · left
    refine ⟨hk, ⟨hB.neg, ?_, ?_, ?_, ?_⟩⟩
    all_goals
      intro a b x y ha hb ok r
    · obtain ⟨c, z, h1, h2, h3, h4⟩ := hB.add a b x y ha hb ok r
      exact ⟨c, z, h1, h2, fun h => (h3 h).2.1, fun h => (h4 h).2.1⟩
    · obtain ⟨c, z, h1, h2, h3, h4⟩ := hB.sub a b x y ha hb ok r
      exact ⟨c, z, h1, h2, fun h => (h3 h).2.1, fun h => (h4 h).2.1⟩
    · obtain ⟨c, z, h1, h2, h3, h4⟩ := hB.mul a b x y ha hb ok r
      exact ⟨c, z, h1, h2, fun h => (h3 h).2.1, fun h => (h4 h).2.1⟩
    · obtain ⟨c, z, h1, h2, h3, h4⟩ := hB.div a b x y ha hb ok r
      exact ⟨c, z, h1, h2, fun h => (h3 h).2.1, fun h => (h4 h).2.1⟩
  · exact .inr h

end
end BI
