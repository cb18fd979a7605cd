import Verif.Proofs.PolicyChange
import Verif.Proofs.IsotoneNoInf
/-! # Two checking policies on the same operands, for base types without infinities in debug builds -/

set_option linter.unusedSectionVars false

namespace BI
open Set

section
variable {T : Type} [Num T] [Val T] [NumLaws T] {V : Env T}

/-- One outcome: an enclosure of `S`, or an assertion. -/
def Joint (S : Set ℝ) (q q' : Res (Itv T)) : Prop := q = q' ∧ Out True S q

/-- The same from some depth of recursion on. -/
def Common (l : Prop) (S : Set ℝ) (a b : ℕ → Res (Itv T)) : Prop := ∃ q N, Out True S q ∧ (l → N = 0) ∧ ∀ n ≥ N, a n = q ∧ b n = q

omit [Num T] [NumLaws T] in
theorem Joint.common {l : Prop} {S : Set ℝ} {q q' : Res (Itv T)} (h : Joint S q q') : Common l S (fun _ => q) (fun _ => q') :=
  ⟨q, 0, h.2, fun _ => rfl, fun _ _ => ⟨rfl, h.1.symm⟩⟩

omit [Num T] [NumLaws T] in
theorem Common.bind {l l' : Prop} {S S' : Set ℝ} {a b : ℕ → Res (Itv T)} {g g' : ℕ → Itv T → Res (Itv T)} (h : Common l S a b)
    (hg : ∀ x, S ⊆ γ x → Common l' S' (fun n => g n x) (fun n => g' n x)) :
    Common (l ∧ l') S' (fun n => a n >>= g n) (fun n => b n >>= g' n) := by
  obtain ⟨q, N, ⟨x, rfl, hx⟩ | ⟨e, ⟨-, rfl⟩, rfl⟩, hN, h⟩ := h
  · obtain ⟨q', N', k1, k2, k3⟩ := hg x hx
    refine ⟨q', max N N', k1, fun h => by rw [hN h.1, k2 h.2]; rfl, fun n hn => ?_⟩
    obtain ⟨h1, h2⟩ := h n ((le_max_left _ _).trans hn)
    dsimp only
    rw [h1, h2]
    exact k3 n ((le_max_right _ _).trans hn)
  · refine ⟨.error .assertion, N, .inr ⟨_, ⟨trivial, rfl⟩, rfl⟩, fun h => hN h.1, fun n hn => ?_⟩
    obtain ⟨h1, h2⟩ := h n hn
    dsimp only
    rw [h1, h2]
    exact ⟨rfl, rfl⟩

omit [Num T] [NumLaws T] in
theorem Common.mono {l l' : Prop} {S : Set ℝ} {a b : ℕ → Res (Itv T)} (h : Common l S a b) (hl : l' → l) : Common l' S a b := by
  obtain ⟨q, N, h1, h2, h3⟩ := h
  exact ⟨q, N, h1, fun h => h2 (hl h), h3⟩

omit [Num T] [NumLaws T] in
theorem Common.step {l : Prop} {S S' : Set ℝ} {a b : ℕ → Res (Itv T)} {g g' : Itv T → Res (Itv T)} (h : Common l S a b)
    (hg : ∀ x, S ⊆ γ x → Joint S' (g x) (g' x)) : Common l S' (fun n => a n >>= g) (fun n => b n >>= g') :=
  (h.bind (g := fun _ => g) (g' := fun _ => g') (l' := True) fun x hx => (hg x hx).common).mono fun h => ⟨h, trivial⟩

omit [Num T] [NumLaws T] in
theorem Common.step₂ {l l' : Prop} {S₁ S₂ S' : Set ℝ} {a b a' b' : ℕ → Res (Itv T)} {g g' : Itv T → Itv T → Res (Itv T)}
    (h : Common l S₁ a b) (k : Common l' S₂ a' b') (hg : ∀ x y, S₁ ⊆ γ x → S₂ ⊆ γ y → Joint S' (g x y) (g' x y)) :
    Common (l ∧ l') S' (fun n => pair (a n) (a' n) >>= fun p => g p.1 p.2) (fun n => pair (b n) (b' n) >>= fun p => g' p.1 p.2) := by
  have e : ∀ (q r : Res (Itv T)) (g : Itv T → Itv T → Res (Itv T)),
      (pair q r >>= fun p => g p.1 p.2) = (q >>= fun x => r >>= fun y => g x y) := fun q r g => by cases q <;> cases r <;> rfl
  simp only [e]
  exact h.bind (g := fun n x => a' n >>= fun y => g x y) (g' := fun n x => b' n >>= fun y => g' x y)
    fun x hx => k.step fun y hy => hg x y hx hy

/-- An outcome that is an enclosure or an assertion is not an empty interval. -/
theorem joint_of {W : Env T} {S S' : Set ℝ} {q q' : Res (Itv T)} (hne : S.Nonempty) (h : Out True S q) (ha : Alike V.C W.C q q') (hs : S' ⊆ S) :
    Joint S' q q' := by
  rcases ha with ha | ⟨ha, -⟩
  · exact ⟨ha, h.mono hs⟩
  · exfalso
    rcases emptyI_spec (T := T) V.checks V.ndebug with ⟨-, h1⟩ | ⟨-, w, h1, h2⟩ <;> rcases h with ⟨z, rfl, hz⟩ | ⟨e, ⟨-, rfl⟩, rfl⟩
    · cases ha.trans h1
    · cases ha.trans h1
    · cases ha.trans h1
      have := hne.mono hz
      rw [h2.gamma] at this; exact this.ne_empty rfl
    · cases ha.trans h1

theorem sameInf_debug (hn : V.NoInf) (sp : ChkSpec) : SameInf V.C (V.recheck sp false).C := by
  have hn' : (V.recheck sp false).NoInf := ⟨hn.inf, rfl⟩
  exact ⟨by rw [NoInf.posInf_eq hn, NoInf.posInf_eq hn'], by rw [NoInf.negInf_eq hn, NoInf.negInf_eq hn']⟩

theorem Expr.Supported.recheck {K : PiConst T} {inf : Prop} (sp : ChkSpec) (nd : Bool) {e : Expr T} (hs : e.Supported V K inf) :
    e.Supported (V.recheck sp nd) K inf := by
  induction e with
  | var i => trivial
  | num t => trivial
  | un o e ih => exact ⟨hs.1, hs.2.1, ih hs.2.2⟩
  | pow e k ih => exact ⟨hs.1, hs.2.1, hs.2.2.1, ih hs.2.2.2⟩
  | bin o e₁ e₂ ih₁ ih₂ => exact ⟨hs.1, ih₁ hs.2.1, ih₂ hs.2.2⟩
  | binL o t e ih => exact ⟨hs.1, ih hs.2⟩
  | binR o e t ih => exact ih hs
  | inter e₁ e₂ ih₁ ih₂ => exact ⟨ih₁ hs.1, ih₂ hs.2⟩
  | fn f e ih => exact ⟨hs.1, ih hs.2⟩

variable (hV : V.Directed) (hn : V.NoInf) (sp : ChkSpec)
include hV hn

theorem Expr.eval_joint {K : PiConst T} (ρ : ℕ → Itv T) (e : Expr T) (hs : e.Supported V K True) (hd : ∃ r, e.ValueIn ρ r) :
    Common (e.nests = false) {r | e.ValueIn ρ r} (fun n => e.eval K n V.pp ρ) (fun n => e.eval K n (V.recheck sp false).pp ρ) := by
  let W := V.recheck sp false
  have hS : SameInf V.C W.C := sameInf_debug hn sp
  have hB : True → V.NoInf := fun _ => hn
  induction e with
  | var i => exact Joint.common ⟨rfl, .inl ⟨ρ i, rfl, fun r ⟨v, hv, hr⟩ => hr ▸ hv i⟩⟩
  | num t =>
    obtain ⟨r₀, v, -, hr⟩ := hd
    obtain ⟨z, hz, -, -, e⟩ := C36_num V hr
    refine Joint.common ⟨ctorT_alike V.chk W.chk hr, .inl ⟨z, hz, fun r ⟨v, hv, hr'⟩ => ?_⟩⟩
    rw [e]; exact EReal.coe_eq_coe_iff.1 (Option.some.inj (hr'.symm.trans hr))
  | un o e ih =>
    obtain ⟨-, hq, hs⟩ := hs
    obtain ⟨r₀, v, hv, a₀, hr, hr₀⟩ := hd
    have h1 := ih hs ⟨a₀, v, hv, hr⟩
    refine h1.step (g := fun x => o.I V.pp x) (g' := fun x => o.I W.pp x) fun x hx => ?_
    have ha : a₀ ∈ γ x := hx ⟨v, hv, hr⟩
    obtain ⟨_, _, ix⟩ := has_of_mem ha
    exact joint_of (S := {r | ∃ a ∈ γ x, o.Rel a r}) ⟨r₀, a₀, ha, hr₀⟩ (UnOp.I_out hB hV o (fun _ => .inr trivial) hq ⟨a₀, ha, r₀, hr₀⟩)
      (UnOp.I_alike V.chk W.chk o (fun _ => hS) ix) fun r ⟨v, hv, a, ha, h⟩ => ⟨a, hx ⟨v, hv, ha⟩, h⟩
  | pow e k ih =>
    obtain ⟨hG, hk, -, hs⟩ := hs
    obtain ⟨r₀, v, hv, a₀, hr, ha₀, hr₀⟩ := hd
    have h1 := ih hs ⟨a₀, v, hv, hr⟩
    refine h1.step (g := fun x => powI V.pp x k) (g' := fun x => powI W.pp x k) fun x hx => ?_
    have ha : a₀ ∈ γ x := hx ⟨v, hv, hr⟩
    obtain ⟨_, _, ix⟩ := has_of_mem ha
    exact joint_of (S := {r | ∃ a ∈ γ x, (a ≠ 0 ∨ 0 < k) ∧ r = a ^ k}) ⟨r₀, a₀, ha, ha₀, hr₀⟩ (powI_out hB hG (fun _ => .inr trivial) hk ⟨a₀, ha, ha₀⟩)
      (pow_alike sp false hG (fun _ => hS) ix) fun r ⟨v, hv, a, ha, h⟩ => ⟨a, hx ⟨v, hv, ha⟩, h⟩
  | bin o e₁ e₂ ih₁ ih₂ =>
    obtain ⟨-, hs₁, hs₂⟩ := hs
    obtain ⟨r₀, v, hv, a₀, b₀, hr₁, hr₂, hr₀⟩ := hd
    have h1 := ih₁ hs₁ ⟨a₀, v, hv, hr₁⟩
    have k1 := ih₂ hs₂ ⟨b₀, v, hv, hr₂⟩
    refine ((h1.step₂ k1 (g := fun x y => o.II V.pp x y)
      (g' := fun x y => o.II W.pp x y) fun x y hx hy => ?_).mono fun h => Bool.or_eq_false_iff.1 h)
    · have ha : a₀ ∈ γ x := hx ⟨v, hv, hr₁⟩
      have hb : b₀ ∈ γ y := hy ⟨v, hv, hr₂⟩
      obtain ⟨_, _, ix⟩ := has_of_mem ha
      obtain ⟨_, _, iy⟩ := has_of_mem hb
      exact joint_of (S := {r | ∃ a ∈ γ x, ∃ b ∈ γ y, o.Rel a b r}) ⟨r₀, a₀, ha, b₀, hb, hr₀⟩ (BinOp.II_out hB hV o (fun _ => .inr trivial) ⟨a₀, ha, b₀, hb, r₀, hr₀⟩)
        (BinOp.II_alike V.chk W.chk o (fun _ => hS) ix iy) fun r ⟨v, hv, a, b, ha, hb, h⟩ => ⟨a, hx ⟨v, hv, ha⟩, b, hy ⟨v, hv, hb⟩, h⟩
  | binL o t e ih =>
    obtain ⟨-, hs⟩ := hs
    obtain ⟨r₀, v, hv, a₀, b₀, ht, hr, hr₀⟩ := hd
    have h1 := ih hs ⟨b₀, v, hv, hr⟩
    refine h1.step (g := fun x => o.TI V.pp t x) (g' := fun x => o.TI W.pp t x) fun x hx => ?_
    have hb : b₀ ∈ γ x := hx ⟨v, hv, hr⟩
    obtain ⟨_, _, ix⟩ := has_of_mem hb
    exact joint_of (S := {r | ∃ b ∈ γ x, o.Rel a₀ b r}) ⟨r₀, b₀, hb, hr₀⟩ (BinOp.TI_out hB hV o (fun _ => .inr trivial) ht ⟨b₀, hb, r₀, hr₀⟩)
      (BinOp.TI_alike V.chk W.chk o (fun _ => hS) ht ix) fun r ⟨v, hv, a, b, ht', hb, h⟩ => ⟨b, hx ⟨v, hv, hb⟩, by
        rwa [EReal.coe_eq_coe_iff.1 (Option.some.inj (ht.symm.trans ht'))]⟩
  | binR o e t ih =>
    obtain ⟨r₀, v, hv, a₀, b₀, hr, ht, hr₀⟩ := hd
    have h1 := ih hs ⟨a₀, v, hv, hr⟩
    refine h1.step (g := fun x => o.IT V.pp x t) (g' := fun x => o.IT W.pp x t) fun x hx => ?_
    have ha : a₀ ∈ γ x := hx ⟨v, hv, hr⟩
    obtain ⟨_, _, ix⟩ := has_of_mem ha
    exact joint_of (S := {r | ∃ a ∈ γ x, o.Rel a b₀ r}) ⟨r₀, a₀, ha, hr₀⟩ (BinOp.IT_out hV o ht ⟨a₀, ha, r₀, hr₀⟩)
      (BinOp.IT_alike V.chk W.chk o ix ht) fun r ⟨v, hv, a, b, ha, ht', h⟩ => ⟨a, hx ⟨v, hv, ha⟩, by
        rwa [EReal.coe_eq_coe_iff.1 (Option.some.inj (ht.symm.trans ht'))]⟩
  | inter e₁ e₂ ih₁ ih₂ =>
    obtain ⟨hs₁, hs₂⟩ := hs
    obtain ⟨r₀, v, hv, hr₁, hr₂⟩ := hd
    have h1 := ih₁ hs₁ ⟨r₀, v, hv, hr₁⟩
    have k1 := ih₂ hs₂ ⟨r₀, v, hv, hr₂⟩
    refine ((h1.step₂ k1 (g := fun x y => lift (intersect V.pp.chk x y))
      (g' := fun x y => lift (intersect W.pp.chk x y)) fun x y hx hy => ?_).mono fun h => Bool.or_eq_false_iff.1 h)
    · have h₀ : r₀ ∈ γ x ∩ γ y := ⟨hx ⟨v, hv, hr₁⟩, hy ⟨v, hv, hr₂⟩⟩
      obtain ⟨_, _, ix⟩ := has_of_mem h₀.1
      obtain ⟨_, _, iy⟩ := has_of_mem h₀.2
      obtain ⟨z, hz, e⟩ := C23_intersect V ⟨r₀, h₀⟩
      exact joint_of ⟨r₀, h₀⟩ (.inl ⟨z, hz, e.ge⟩) (intersect_alike V.chk W.chk ix iy)
        fun r ⟨v, hv, ha, hb⟩ => ⟨hx ⟨v, hv, ha⟩, hy ⟨v, hv, hb⟩⟩
  | fn f e ih =>
    obtain ⟨hf, hs⟩ := hs
    obtain ⟨r₀, v, hv, a₀, hr, hr₀, e₀⟩ := hd
    have h1 := ih hs ⟨a₀, v, hv, hr⟩
    refine (h1.bind (g := fun n x => f.I K n V.pp x) (g' := fun n x => f.I K n W.pp x) (l' := (f.uses == .cos) = false) fun x hx => ?_).mono
      fun h => And.symm (Bool.or_eq_false_iff.1 h)
    have ha : a₀ ∈ γ x := hx ⟨v, hv, hr⟩
    obtain ⟨_, _, ix⟩ := has_of_mem ha
    obtain ⟨q, N, k1, k2, k3⟩ := Fn.I_out hB f hV (fun _ => .inr trivial) hf ⟨a₀, ha, hr₀⟩
    have hm : {r | (Expr.fn f e).ValueIn ρ r} ⊆ f.real '' (γ x ∩ f.dom) := fun r ⟨v, hv, a, ha, hd, h⟩ => ⟨a, ⟨hx ⟨v, hv, ha⟩, hd⟩, h.symm⟩
    refine ⟨q, N, k1.mono hm, k2, fun n hN => ⟨k3 n hN, ?_⟩⟩
    have := joint_of (W := W) (q := f.I K n V.pp x) (q' := f.I K n W.pp x) (S := f.real '' (γ x ∩ f.dom)) ⟨_, a₀, ⟨ha, hr₀⟩, rfl⟩
      (by rw [k3 n hN]; exact k1) (Fn.alike sp false hf (fun _ => hS) n ix) subset_rfl
    exact this.1.symm.trans (k3 n hN)
end
end BI
