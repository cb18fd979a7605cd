import Verif.Proofs.ExLoop
import Verif.Spec.Root
/-! # Triples for computations whose results may depend on the rounding direction in force -/

set_option linter.unusedSectionVars false

namespace BI

/-- A normal outcome satisfies `Q`, another one `E`. -/
def PostE (E : Err → Prop) {α : Type} (r : Res α) (Q : α → Prop) : Prop :=
  match r with
  | .ok a => Q a
  | .error e => E e

theorem Post.toE {E : Err → Prop} {α : Type} {r : Res α} {Q : α → Prop} (h : Post True r Q) : PostE E r Q := by
  cases r with
  | ok a => exact h
  | error e => exact absurd trivial h.2

theorem PostE.bind {E : Err → Prop} {α β : Type} {r : Res α} {g : α → Res β} {Q : α → Prop} {R : β → Prop} (h : PostE E r Q)
    (hg : ∀ a, Q a → PostE E (g a) R) : PostE E (r >>= g) R := by
  cases r with
  | ok a => exact hg a h
  | error e => exact h

theorem PostE.mono {E : Err → Prop} {α : Type} {r : Res α} {Q R : α → Prop} (h : PostE E r Q) (hQ : ∀ a, Q a → R a) : PostE E r R := by
  cases r with
  | ok a => exact hQ a h
  | error e => exact h

/-- From a state that satisfies the invariant: if the computation returns, the result satisfies `Q` and the invariant holds
again; otherwise the error satisfies `E`. -/
def Tri {W : Type} (J : Inv W) (E : Err → Prop) {α : Type} (a : M W α) (Q : α → Prop) : Prop :=
  ∀ s : St W, J.Pre s.cw → J.Rel s.cw (a s).2.cw ∧
    (match (a s).1 with
      | .ok x => Q x ∧ J.Pre (a s).2.cw
      | .error e => E e)

namespace Tri
variable {W : Type} {J : Inv W} {E : Err → Prop} {α β : Type}

theorem pure {a : α} {Q : α → Prop} (h : Q a) : Tri J E (Pure.pure a : M W α) Q := fun _ hs => ⟨J.refl _ hs, h, hs⟩

theorem err {e : Err} {Q : α → Prop} (h : E e) : Tri J E (BI.lift (.error e) : M W α) Q := fun _ hs => ⟨J.refl _ hs, h⟩

theorem lift {r : Res α} {Q : α → Prop} (h : PostE E r Q) : Tri J E (BI.lift r : M W α) Q := by
  intro s hs
  refine ⟨J.refl _ hs, ?_⟩
  cases r with
  | ok a => exact ⟨h, hs⟩
  | error e => exact h

theorem mono {a : M W α} {Q R : α → Prop} (h : Tri J E a Q) (hQ : ∀ x, Q x → R x) : Tri J E a R := by
  intro s hs
  obtain ⟨h1, h2⟩ := h s hs
  refine ⟨h1, ?_⟩
  cases ho : (a s).1 with
  | ok x => rw [ho] at h2; exact ⟨hQ x h2.1, h2.2⟩
  | error e => rw [ho] at h2; exact h2

theorem errMono {E' : Err → Prop} {a : M W α} {Q : α → Prop} (h : Tri J E a Q) (hE : ∀ e, E e → E' e) : Tri J E' a Q := by
  intro s hs
  obtain ⟨h1, h2⟩ := h s hs
  refine ⟨h1, ?_⟩
  cases ho : (a s).1 with
  | ok x => rw [ho] at h2; exact h2
  | error e => rw [ho] at h2; exact hE e h2

theorem bind {a : M W α} {g : α → M W β} {Q : α → Prop} {R : β → Prop} (h : Tri J E a Q) (hg : ∀ x, Q x → Tri J E (g x) R) :
    Tri J E (a >>= g) R := by
  intro s hs
  obtain ⟨h1, h2⟩ := h s hs
  change J.Rel s.cw (M.bind a g s).2.cw ∧ _
  have e : (a >>= g) s = M.bind a g s := rfl
  rw [e]
  unfold M.bind
  rcases ho : a s with ⟨o, s'⟩
  rw [ho] at h1 h2
  cases o with
  | error e => exact ⟨h1, h2⟩
  | ok x =>
    obtain ⟨k1, k2⟩ := hg x h2.1 s' h2.2
    exact ⟨J.trans _ _ _ h1 k1, k2⟩

theorem of_sim {a : M W α} {r : Res α} {Q : α → Prop} (h : Sim J a r) (hp : PostE E r Q) : Tri J E a Q := by
  intro s hs
  obtain ⟨h1, h2, h3⟩ := h s hs
  refine ⟨h2, ?_⟩
  rw [h1]
  cases r with
  | ok x => exact ⟨hp, h3 x rfl⟩
  | error e => exact hp

theorem ite {c : Prop} [Decidable c] {a b : M W α} {Q : α → Prop} (h1 : c → Tri J E a Q) (h2 : ¬c → Tri J E b Q) :
    Tri J E (if c then a else b) Q := by
  by_cases h : c
  · rw [if_pos h]; exact h1 h
  · rw [if_neg h]; exact h2 h
end Tri

section
variable {T : Type} [Num T] {V : Env T} {E : Err → Prop} {α : Type}

theorem tri_cur {J : Inv V.ctl.W} {g : RMode → Option α} {Q : α → Prop} (h : ∀ r, ∃ t, g r = some t ∧ Q t) : Tri J E (V.P.cur g) Q := by
  intro s hs
  have e : V.P.cur g = evalIn V.ctl g := by
    unfold Env.P libPolicies; cases V.kind <;> rfl
  obtain ⟨t, ht, hq⟩ := h (V.ctl.decode s.cw)
  rw [e]
  refine ⟨J.refl _ hs, ?_⟩
  change match ofOpt (g (V.ctl.decode s.cw)) with
    | .ok x => Q x ∧ J.Pre s.cw
    | .error e => E e
  rw [ht]
  exact ⟨hq, hs⟩

/-- The rounding object. -/
theorem tri_scope (hk : V.kind ≠ .exact) {a : M V.ctl.W α} {Q : α → Prop} (h : Tri (inner V.laws V.kind) E a Q) :
    Tri (outer V.laws) E (V.P.rnd.scope a) Q := by
  intro s hs
  have key : ∀ k, V.kind = k → k ≠ .exact → V.P.rnd.scope a = fun s =>
      ((a { s with cw := initOf V.ctl k s.cw }).1,
        { (a { s with cw := initOf V.ctl k s.cw }).2 with
          cw := V.ctl.set (V.ctl.get s.cw) (a { s with cw := initOf V.ctl k s.cw }).2.cw }) := by
    intro k hk' hne
    unfold Env.P
    rw [hk']
    cases k with
    | exact => exact absurd rfl hne
    | std => rfl
    | opp => rfl
  rw [key _ rfl hk]
  generalize hkk : V.kind = k at h hk
  have hv : V.laws.valid (initOf V.ctl k s.cw) := by cases k <;> first | exact hs | exact V.laws.valid_up _ hs
  have hsm : V.laws.same s.cw (initOf V.ctl k s.cw) := by
    cases k <;> first | exact V.laws.same_refl _ | exact V.laws.same_up _ hs
  have hu : k = .opp → V.ctl.decode (initOf V.ctl k s.cw) = .up := by
    rintro rfl; exact V.laws.decode_up _ hs
  obtain ⟨h1, h2⟩ := h { s with cw := initOf V.ctl k s.cw } ⟨hv, hu⟩
  have hr := V.laws.restore s.cw _ hs (V.laws.same_trans _ _ _ hsm h1)
  refine ⟨hr.symm, ?_⟩
  dsimp only
  cases ho : (a { s with cw := initOf V.ctl k s.cw }).1 with
  | ok x =>
    rw [ho] at h2
    refine ⟨h2.1, ?_⟩
    change V.laws.valid (V.ctl.set (V.ctl.get s.cw) (a { s with cw := initOf V.ctl k s.cw }).2.cw)
    rw [hr]; exact hs
  | error e => rw [ho] at h2; exact h2

/-- Policies inside a rounding object. -/
theorem Env.simU (V : Env T) (hk : V.kind ≠ .exact) :
    PSim (inner V.laws V.kind) (inner V.laws V.kind) V.P.unprot V.B V.C := by
  have h : PSim (outer V.laws) (inner V.laws V.kind) V.P V.B V.C := by
    have := protPolicies_sim (L := V.laws) V.kind V.lib V.C (fun h => absurd h hk)
    unfold Env.P Env.B libPolicies
    cases hh : V.kind with
    | exact => exact absurd hh hk
    | std => rw [hh] at this; exact this
    | opp => rw [hh] at this; exact this
  exact h.unprot

variable [Val T]

theorem Env.ReturnsInside.tri {a : M V.ctl.W α} {Q : α → Prop} (h : V.ReturnsInside a Q) : Tri (inner V.laws V.kind) E a Q := by
  intro s hs
  obtain ⟨z, h1, h2, h3, h4, h5⟩ := h s hs.1 hs.2
  refine ⟨h3, ?_⟩
  rw [h1]
  exact ⟨h2, h4, h5⟩

theorem tri_inside {a : M V.ctl.W α} {Q : α → Prop} (h : Tri (inner V.laws V.kind) (fun _ => False) a Q) : V.ReturnsInside a Q := by
  intro s hs ho
  obtain ⟨h1, h2⟩ := h s ⟨hs, ho⟩
  cases hh : (a s).1 with
  | ok x => rw [hh] at h2; exact ⟨x, rfl, h2.1, h1, h2.2.1, h2.2.2⟩
  | error e => rw [hh] at h2; exact h2.elim

theorem Env.Returns.tri {a : M V.ctl.W α} {Q : α → Prop} (h : V.Returns a Q) : Tri (outer V.laws) E a Q := by
  intro s hs
  obtain ⟨z, h1, h2, h3⟩ := h s hs
  refine ⟨h2.symm, ?_⟩
  rw [h1]
  refine ⟨h3, ?_⟩
  change V.laws.valid (a s).2.cw
  rw [h2]; exact hs
end
end BI
