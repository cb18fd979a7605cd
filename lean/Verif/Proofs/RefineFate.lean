import Verif.Proofs.Refine
import Verif.Proofs.Outcome
/-! # One formula with numbers of two types: the outcome of every formula -/

set_option linter.unusedSectionVars false

namespace BI.Refine
open Set BI

section
variable {T U : Type} [Num T] [Val T] [NumLaws T] [Num U] [Val U] [NumLaws U] (V : Env T) (W : Env U)

/-- One operation in the coarser and in the finer configuration. -/
def Pick (q : Res (Itv T)) (q' : Res (Itv U)) : Prop :=
  (∃ z z', (γ z').Nonempty ∧ γ z' ⊆ γ z ∧ q = .ok z ∧ q' = .ok z') ∨ q' = emptyI W.C

/-- A formula in the two configurations: nested results, or an empty interval was created in the finer one. -/
def Fate (h : Prop) (a : Policies (M V.ctl.W) T → M V.ctl.W (Itv T)) (a' : Policies (M W.ctl.W) U → M W.ctl.W (Itv U))
    (q : Res (Itv T)) (q' : Res (Itv U)) : Prop :=
  (∃ z z', (γ z').Nonempty ∧ γ z' ⊆ γ z ∧ Fine V a q z ∧ Fine W a' q' z') ∨ Gone W h Void a' q'

variable {V W} {S : Set ℝ} {q : Res (Itv T)} {q' : Res (Itv U)} {h : Prop}

theorem pick_of (h1 : S.Nonempty → Nest S q' q) (h2 : S = ∅ → q' = emptyI W.C) : Pick W q q' := by
  rcases S.eq_empty_or_nonempty with h | h
  · exact .inr (h2 h)
  · obtain ⟨z', z, k1, k2, k3, k4⟩ := h1 h
    exact .inl ⟨z, z', h.mono k3, k4, k2, k1⟩

variable {a b : Policies (M V.ctl.W) T → M V.ctl.W (Itv T)} {a' b' : Policies (M W.ctl.W) U → M W.ctl.W (Itv U)}
  {r : Res (Itv T)} {r' : Res (Itv U)}

theorem Fate.step {f : Policies (M V.ctl.W) T → Itv T → M V.ctl.W (Itv T)} {f' : Policies (M W.ctl.W) U → Itv U → M W.ctl.W (Itv U)}
    {g : Itv T → Res (Itv T)} {g' : Itv U → Res (Itv U)} (H : Fate V W h a a' q q')
    (hg : ∀ x x', (γ x').Nonempty → γ x' ⊆ γ x → Pick W (g x) (g' x'))
    (hs : ∀ x {I J : Inv V.ctl.W} {P : Policies (M V.ctl.W) T}, PSim I J P V.B V.C → Sim I (f P x) (g x))
    (hs' : ∀ x {I J : Inv W.ctl.W} {P : Policies (M W.ctl.W) U}, PSim I J P W.B W.C → Sim I (f' P x) (g' x))
    (hv' : h → W.checks.forbidsEmpty = false → ∀ x, Void x → ∃ z, g' x = .ok z ∧ Void z) :
    Fate V W h (fun P => a P >>= f P) (fun P => a' P >>= f' P) (q >>= g) (q' >>= g') := by
  rcases H with ⟨x, x', hx, hxx, H, H'⟩ | H
  · rcases hg x x' hx hxx with ⟨z, z', hz, hzz, h1, h2⟩ | h2
    · exact .inl ⟨z, z', hz, hzz, H.bind (.of_sim h1 (hs x)), H'.bind (.of_sim h2 (hs' x'))⟩
    · exact .inr (H'.bind_gone (.of_empty h2 (hs' x')))
  · exact .inr (H.bind fun hE hh x hx => hv' hh hE x hx)

theorem Fate.step₂ {f : Policies (M V.ctl.W) T → Itv T → Itv T → M V.ctl.W (Itv T)}
    {f' : Policies (M W.ctl.W) U → Itv U → Itv U → M W.ctl.W (Itv U)} {g : Itv T → Itv T → Res (Itv T)} {g' : Itv U → Itv U → Res (Itv U)}
    (H : Fate V W h a a' q q') (K : Fate V W h b b' r r')
    (hg : ∀ x x' y y', (γ x').Nonempty → γ x' ⊆ γ x → (γ y').Nonempty → γ y' ⊆ γ y → Pick W (g x y) (g' x' y'))
    (hs : ∀ x y {I J : Inv V.ctl.W} {P : Policies (M V.ctl.W) T}, PSim I J P V.B V.C → Sim I (f P x y) (g x y))
    (hs' : ∀ x y {I J : Inv W.ctl.W} {P : Policies (M W.ctl.W) U}, PSim I J P W.B W.C → Sim I (f' P x y) (g' x y))
    (hv' : h → W.checks.forbidsEmpty = false → ∀ x y, Void x ∨ Void y → ∃ z, g' x y = .ok z ∧ Void z) :
    Fate V W h (fun P => BI.pair (a P) (b P) >>= fun p => f P p.1 p.2) (fun P => BI.pair (a' P) (b' P) >>= fun p => f' P p.1 p.2)
      (BI.pair q r >>= fun p => g p.1 p.2) (BI.pair q' r' >>= fun p => g' p.1 p.2) := by
  have gone : Gone W h (fun p : Itv U × Itv U => Void p.1 ∨ Void p.2) (fun P => BI.pair (a' P) (b' P)) (BI.pair q' r') →
      Gone W h Void (fun P => BI.pair (a' P) (b' P) >>= fun p => f' P p.1 p.2) (BI.pair q' r' >>= fun p => g' p.1 p.2) :=
    fun H => H.bind fun hE hh p hp => hv' hh hE p.1 p.2 hp
  rcases H with ⟨x, x', hx, hxx, H, H'⟩ | H <;> rcases K with ⟨y, y', hy, hyy, K, K'⟩ | K
  · rcases hg x x' y y' hx hxx hy hyy with ⟨z, z', hz, hzz, h1, h2⟩ | h2
    · exact .inl ⟨z, z', hz, hzz, (H.pair K).bind (.of_sim h1 (hs x y)), (H'.pair K').bind (.of_sim h2 (hs' x' y'))⟩
    · exact .inr ((H'.pair K').bind_gone (.of_empty h2 (hs' x' y')))
  · exact .inr (gone (.pair_right H' K))
  · exact .inr (gone (H.pair_left K'))
  · exact .inr (gone (H.pair K))

variable {K : PiConst T} {K' : PiConst U} {n n' : ℕ} {φ : T → U}

theorem Expr.eval_fate (hφ : Lossless φ) (hv : ∃ s : W.State, W.Valid s) (hV : V.Directed) (hW : W.Tight)
    {ρ : ℕ → Itv T} {ρ' : ℕ → Itv U} (hn : ∀ i, (γ (ρ' i)).Nonempty) (hρ : ∀ i, γ (ρ' i) ⊆ γ (ρ i)) (e : Expr T)
    (hs : e.Supported V K (InfBase T)) (hs' : (e.conv φ).Sharp W K' (InfBase U)) (hf : e.Finite) (h : Prop) (hh : h → e.hullFree = true) :
    Fate V W h (fun P => e.eval K n P ρ) (fun P => (e.conv φ).eval K' n' P ρ') (e.eval K n V.pp ρ) ((e.conv φ).eval K' n' W.pp ρ') := by
  induction e with
  | var i => exact .inl ⟨ρ i, ρ' i, hn i, hρ i, .of_sim rfl fun _ => Sim.pure _, .of_sim rfl fun _ => Sim.pure _⟩
  | num t =>
    obtain ⟨r, hr⟩ := hf
    obtain ⟨z, hz, -, -, e⟩ := C36_num V hr
    obtain ⟨z', hz', -, -, e'⟩ := C36_num W ((hφ t).trans hr)
    refine .inl ⟨z, z', by rw [e']; exact ⟨r, rfl⟩, by rw [e, e'], .of_sim hz fun hP => ?_, .of_sim hz' fun hP => ?_⟩
    · unfold Expr.eval; rw [hP.chk]; exact Sim.lift _
    · unfold Expr.conv Expr.eval; rw [hP.chk]; exact Sim.lift _
  | un o e ih =>
    obtain ⟨ho, hS, hs⟩ := hs
    obtain ⟨ho', hS', hs'⟩ := hs'
    refine (ih hs hs' hf hh).step (f := fun P x => o.I P x) (f' := fun P x => o.I P x) (g := fun x => o.I V.pp x) (g' := fun x => o.I W.pp x)
      (fun x x' hx hxx => ?_) (fun x _ _ _ h => UnOp.I_sim h o x) (fun x _ _ _ h => UnOp.I_sim h o x) fun _ hE x hx => UnOp.I_void W hE o hx
    exact pick_of (S := {r | ∃ a ∈ γ x', o.Rel a r}) (fun ⟨r, a, ha, hr⟩ => UnOp.I_nest hφ hv hV hW o ho ho' hS hS' ⟨a, ha, r, hr⟩ hxx)
      (UnOp.I_empty W o hx)
  | pow e k ih =>
    obtain ⟨hsg, hk, ho, hs⟩ := hs
    obtain ⟨-, ho', hs'⟩ := hs'
    refine (ih hs hs' hf hh).step (f := fun P x => powI P x k) (f' := fun P x => powI P x k) (g := fun x => powI V.pp x k)
      (g' := fun x => powI W.pp x k) (fun x x' hx hxx => ?_) (fun x _ _ _ h => powI_sim h x k) (fun x _ _ _ h => powI_sim h x k)
      fun _ hE x hx => powI_void W hE k hx
    exact pick_of (S := {r | ∃ a ∈ γ x', (a ≠ 0 ∨ 0 < k) ∧ r = a ^ k}) (fun ⟨r, a, ha, hr, _⟩ => powI_nest hφ hW hsg hk ho ho' ⟨a, ha, hr⟩ hxx)
      fun h => pow_empty W hW.signed hk hx h
  | bin o e₁ e₂ ih₁ ih₂ =>
    obtain ⟨ho, hs₁, hs₂⟩ := hs
    obtain ⟨ho', hs₁', hs₂'⟩ := hs'
    have hh' : h → o ≠ .hull ∧ e₁.hullFree = true ∧ e₂.hullFree = true := fun h => by
      have := hh h
      simp only [Expr.hullFree, Bool.and_eq_true, bne_iff_ne] at this
      exact ⟨this.1.1, this.1.2, this.2⟩
    refine (ih₁ hs₁ hs₁' hf.1 fun h => (hh' h).2.1).step₂ (f := fun P x y => o.II P x y) (f' := fun P x y => o.II P x y)
      (g := fun x y => o.II V.pp x y) (g' := fun x y => o.II W.pp x y) (ih₂ hs₂ hs₂' hf.2 fun h => (hh' h).2.2)
      (fun x x' y y' hx hxx hy hyy => ?_) (fun x y _ _ _ h => BinOp.II_sim h o x y) (fun x y _ _ _ h => BinOp.II_sim h o x y)
      fun h hE x y hx => BinOp.II_void W hE o (hh' h).1 hx
    exact pick_of (S := {r | ∃ a ∈ γ x', ∃ b ∈ γ y', o.Rel a b r})
      (fun ⟨r, a, ha, b, hb, hr⟩ => BinOp.II_nest hφ hv hV hW o ho ho' ⟨a, ha, b, hb, r, hr⟩ hxx hyy) (BinOp.II_empty W o hx hy)
  | binL o t e ih =>
    obtain ⟨ho, hs⟩ := hs
    obtain ⟨ho', hs'⟩ := hs'
    obtain ⟨⟨c, ht⟩, hf⟩ := hf
    have ht' := (hφ t).trans ht
    have hh' : h → o ≠ .hull ∧ e.hullFree = true := fun h => by
      have := hh h
      simpa only [Expr.hullFree, Bool.and_eq_true, bne_iff_ne] using this
    refine (ih hs hs' hf fun h => (hh' h).2).step (f := fun P x => o.TI P t x) (f' := fun P x => o.TI P (φ t) x) (g := fun x => o.TI V.pp t x)
      (g' := fun x => o.TI W.pp (φ t) x) (fun x x' hx hxx => ?_) (fun x _ _ _ h => BinOp.TI_sim h o t x) (fun x _ _ _ h => BinOp.TI_sim h o _ x)
      fun h hE x hx => BinOp.TI_void W hE o (hh' h).1 (by rw [ht']; simp) hx
    exact pick_of (S := {q | ∃ b ∈ γ x', o.Rel c b q}) (fun ⟨r, b, hb, hr⟩ => BinOp.TI_nest hφ hv hV hW o ho ho' ht ⟨b, hb, r, hr⟩ hxx)
      (BinOp.TI_empty W o ht' hx)
  | binR o e t ih =>
    obtain ⟨hf, ⟨c, ht⟩⟩ := hf
    have ht' := (hφ t).trans ht
    have hh' : h → o ≠ .hull ∧ e.hullFree = true := fun h => by
      have := hh h
      simpa only [Expr.hullFree, Bool.and_eq_true, bne_iff_ne] using this
    refine (ih hs hs' hf fun h => (hh' h).2).step (f := fun P x => o.IT P x t) (f' := fun P x => o.IT P x (φ t)) (g := fun x => o.IT V.pp x t)
      (g' := fun x => o.IT W.pp x (φ t)) (fun x x' hx hxx => ?_) (fun x _ _ _ h => BinOp.IT_sim h o x t) (fun x _ _ _ h => BinOp.IT_sim h o x _)
      fun h hE x hx => BinOp.IT_void W hE o (hh' h).1 (by rw [ht']; simp) hx
    exact pick_of (S := {q | ∃ a ∈ γ x', o.Rel a c q}) (fun ⟨r, a, ha, hr⟩ => BinOp.IT_nest hφ hv hV hW o ht ⟨a, ha, r, hr⟩ hxx)
      (BinOp.IT_empty W o hx ht')
  | inter e₁ e₂ ih₁ ih₂ =>
    have hh' : h → e₁.hullFree = true ∧ e₂.hullFree = true := fun h => by
      have := hh h
      simpa only [Expr.hullFree, Bool.and_eq_true] using this
    refine (ih₁ hs.1 hs'.1 hf.1 fun h => (hh' h).1).step₂ (f := fun P x y => lift (intersect P.chk x y)) (f' := fun P x y => lift (intersect P.chk x y))
      (g := fun x y => intersect V.C x y) (g' := fun x y => intersect W.C x y) (ih₂ hs.2 hs'.2 hf.2 fun h => (hh' h).2)
      (fun x x' y y' hx hxx hy hyy => ?_) (fun x y _ _ _ h => ?_) (fun x y _ _ _ h => ?_) fun h hE x y hx => intersect_void W hE hx
    · rcases (γ x' ∩ γ y').eq_empty_or_nonempty with h | h
      · exact .inr (intersect_empty W hx hy h)
      · obtain ⟨z', hz', e'⟩ := C23_intersect W h
        obtain ⟨z, hz, e⟩ := C23_intersect V (h.mono (inter_subset_inter hxx hyy))
        exact .inl ⟨z, z', e' ▸ h, by rw [e, e']; exact inter_subset_inter hxx hyy, hz, hz'⟩
    · rw [h.chk]; exact Sim.lift _
    · rw [h.chk]; exact Sim.lift _
  | fn f e ih =>
    obtain ⟨hf₁, hs⟩ := hs
    obtain ⟨⟨hK, hf₂, hi, h1⟩, hs'⟩ := hs'
    refine (ih hs hs' hf.2 hh).step (f := fun P x => f.I K n P x) (f' := fun P x => f.I K' n' P x) (g := fun x => f.I K n V.pp x)
      (g' := fun x => f.I K' n' W.pp x) (fun x x' hx hxx => ?_) (fun x _ _ _ h => Fn.I_sim V h f x) (fun x _ _ _ h => Fn.I_sim W h f x)
      fun _ hE x hx => Fn.I_void W hE f K' (fun h => ?_) hx
    · rcases (γ x' ∩ f.dom).eq_empty_or_nonempty with h | h
      · exact .inr (Fn.I_outside W h1 hx h fun h => absurd h hf.1)
      · obtain ⟨z', z, k1, k2, k3, k4⟩ := Fn.I_nest (K := K) (K' := K') (fuel := n) (fuel' := n') hφ hv hV hW f h1 hf₁ hf₂ hK hi h hxx
        exact .inl ⟨z, z', (h.image _).mono k3, k4, k2, k1⟩
    · exact absurd h (by cases f <;> first | exact absurd h1 (by decide) | simp [Fn.uses])
end

end BI.Refine
